import Verif.Proofs.Frac
import Verif.Proofs.StatInt
/-! Helper lemmas: fraction results stay representable; zero and one are neutral without overflow. -/
namespace BSQ

theorem NumTy.inRange_of_fit {t : NumTy} (hb : 0 < t.prim.bits) {x y : Int} (h : t.fit x = .ok y) :
    t.prim.InRange y := by
  unfold NumTy.fit at h
  split at h
  · cases h; assumption
  · cases ho : t.ovf with
    | panic => simp [ho] at h
    | wrap => simp [ho] at h; subst h; exact IntTy.wrap_inRange hb x
    | sat =>
      have := t.prim.lo_le_hi
      simp [ho] at h; subst h
      split
      · exact ⟨le_rfl, this⟩
      · exact ⟨this, le_rfl⟩

theorem NumTy.inRange_of_div {t : NumTy} {x y z : Int} (h : t.div x y = .ok z) :
    t.prim.InRange z := by
  exact (NumTy.div_eq_ok.1 h).2.1 ▸ (NumTy.div_eq_ok.1 h).2.2

/-- the only abnormal outcome is a panic -/
def PanicOnly {α : Type} (x : Res α) : Prop := ∀ e, x = .error e → e = .panic

theorem PanicOnly.bind {α β : Type} {x : Res α} {f : α → Res β} (hx : PanicOnly x)
    (hf : ∀ a, PanicOnly (f a)) : PanicOnly (x >>= f) := by
  intro e h
  cases x with
  | ok a => exact hf a e h
  | error e' => cases h; exact hx _ rfl

/-- independent computations commute -/
theorem Res.swap {α β γ : Type} {x : Res α} {y : Res β} (hx : PanicOnly x) (hy : PanicOnly y)
    (f : α → β → Res γ) : (x >>= fun a => y >>= fun b => f a b) = (y >>= fun b => x >>= fun a => f a b) := by
  cases x with
  | ok a => cases y <;> rfl
  | error e =>
    cases y with
    | ok b => rfl
    | error e' => rw [hx e rfl, hy e' rfl]; rfl

namespace Frac
variable {t : NumTy}

/-- representable parts -/
def Fits (t : NumTy) (a : Frac) : Prop := t.prim.InRange a.num ∧ t.prim.InRange a.den

theorem reduce_fits (hb : 1 < t.prim.bits) {a r : Frac} (e : reduce t a = .ok r) : r.Fits t := by
  have h0 := t.prim.inRange_zero
  have h1 := IntTy.inRange_one hb
  unfold reduce at e
  split at e
  · cases e
  split at e
  · rename_i hn; cases e; exact ⟨by rw [hn]; exact h0, h1⟩
  split at e
  · cases e; exact ⟨h1, h1⟩
  simp only [Res.bind_eq_ok] at e
  obtain ⟨g, hg, n', hn', d', hd', e⟩ := e
  split at e
  · simp only [Res.bind_eq_ok, NumTy.sub] at e
    obtain ⟨x, hx, y, hy, e⟩ := e
    cases e
    exact ⟨NumTy.inRange_of_fit (by omega) hx, NumTy.inRange_of_fit (by omega) hy⟩
  · cases e
    exact ⟨NumTy.inRange_of_div hn', NumTy.inRange_of_div hd'⟩

theorem mul_fits (hb : 1 < t.prim.bits) {a b r : Frac} (e : mul t a b = .ok r) : r.Fits t := by
  simp only [mul, Res.bind_eq_ok] at e
  obtain ⟨_, _, _, _, _, _, _, _, n, hn, _, _, _, _, d, hd, e⟩ := e
  exact reduce_fits hb e

theorem addSub_fits (hb : 1 < t.prim.bits) {op : Int → Int → Res Int} {a b r : Frac}
    (e : addSub t op a b = .ok r) : r.Fits t := by
  unfold addSub at e
  split at e
  · simp only [Res.bind_eq_ok] at e
    obtain ⟨_, _, e⟩ := e
    exact reduce_fits hb e
  · simp only [Res.bind_eq_ok] at e
    obtain ⟨_, _, _, _, _, _, _, _, _, _, _, _, e⟩ := e
    exact reduce_fits hb e

theorem new_fits (hb : 1 < t.prim.bits) {n d : Int} {r : Frac} (e : new t n d = .ok r) : r.Fits t :=
  reduce_fits hb e

theorem valid_int (hb : 1 < t.prim.bits) {z : Int} (h : t.prim.InRange z) : (⟨z, 1⟩ : Frac).Valid t :=
  ⟨wf_int z, h, IntTy.inRange_one hb⟩

theorem mul_valid (h : t.ovf = .panic) (hb : 1 < t.prim.bits) {a b r : Frac} (ha : a.Valid t)
    (hb' : b.Valid t) (e : mul t a b = .ok r) : r.Valid t ∧ r.toRat = a.toRat * b.toRat :=
  ⟨⟨(mul_ok h ha.1 hb'.1 e).1, mul_fits hb e⟩, (mul_ok h ha.1 hb'.1 e).2⟩

theorem add_valid (h : t.ovf = .panic) (hb : 1 < t.prim.bits) {a b r : Frac} (ha : a.Valid t)
    (hb' : b.Valid t) (e : add t a b = .ok r) : r.Valid t ∧ r.toRat = a.toRat + b.toRat :=
  ⟨⟨(add_ok h ha.1 hb'.1 e).1, addSub_fits hb e⟩, (add_ok h ha.1 hb'.1 e).2⟩

theorem min_valid {a b : Frac} (ha : a.Valid t) (hb : b.Valid t) :
    (min a b).Valid t ∧ (min a b).toRat = Min.min a.toRat b.toRat := by
  refine ⟨?_, (min_spec ha.1 hb.1).2⟩
  unfold min; split <;> assumption

theorem max_valid {a b : Frac} (ha : a.Valid t) (hb : b.Valid t) :
    (max a b).Valid t ∧ (max a b).toRat = Max.max a.toRat b.toRat := by
  refine ⟨?_, (max_spec ha.1 hb.1).2⟩
  unfold max; split <;> assumption

theorem gcd_coprime (hb : 1 < t.prim.bits) {x y : Int} (h : Int.gcd x y = 1) : gcd t x y = .ok 1 := by
  rw [gcd, h]; exact NumTy.fit_inRange (IntTy.inRange_one hb)

theorem div_one {x : Int} (h : t.prim.InRange x) : t.div x 1 = .ok x := by
  simp [NumTy.div, h]

theorem reduce_wf (hb : 1 < t.prim.bits) {a : Frac} (ha : a.Valid t) : reduce t a = .ok a := by
  obtain ⟨⟨hp, hc⟩, hn, hd⟩ := ha
  obtain ⟨n, d⟩ := a
  simp only at hp hc hn hd
  unfold reduce
  simp only [hp.ne', if_false]
  split
  · rename_i h0; subst h0
    simp at hc
    have : d = 1 := by omega
    rw [this]
  · split
    · rename_i h0; subst h0
      simp at hc
      have : n = 1 := by omega
      rw [this]
    · simp [gcd_coprime hb hc, div_one hn, div_one hd, not_lt.2 hp.le]

theorem one_mul (hb : 1 < t.prim.bits) {a : Frac} (ha : a.Valid t) : mul t ⟨1, 1⟩ a = .ok a := by
  have hr := reduce_wf hb ha
  obtain ⟨hw, hn, hd⟩ := ha
  have h1 := IntTy.inRange_one hb
  simp [mul, gcd_coprime hb, div_one, h1, hn, hd, NumTy.mul, NumTy.fit_inRange, hr]

theorem mul_one (hb : 1 < t.prim.bits) {a : Frac} (ha : a.Valid t) : mul t a ⟨1, 1⟩ = .ok a := by
  have hr := reduce_wf hb ha
  obtain ⟨hw, hn, hd⟩ := ha
  have h1 := IntTy.inRange_one hb
  simp [mul, gcd_coprime hb, div_one, h1, hn, hd, NumTy.mul, NumTy.fit_inRange, hr]

theorem div_self_pos (hb : 1 < t.prim.bits) {x : Int} (h : 0 < x) : t.div x x = .ok 1 := by
  simp [NumTy.div, h.ne', IntTy.inRange_one hb]

theorem zero_add (hb : 1 < t.prim.bits) {a : Frac} (ha : a.Valid t) : add t ⟨0, 1⟩ a = .ok a := by
  have hv := ha
  obtain ⟨⟨hp, hc⟩, hn, hd⟩ := ha
  have h0 := t.prim.inRange_zero
  have h1 := IntTy.inRange_one hb
  unfold add addSub
  split
  · simp only [NumTy.add, Int.zero_add, NumTy.fit_inRange hn, Res.bind_ok]; exact reduce_wf hb hv
  · have hl : lcm t 1 a.den = .ok a.den := by
      simp [lcm, gcd_coprime hb, div_one, hd, NumTy.mul, NumTy.fit_inRange, abs_of_pos hp]
    simp [hl, div_one, hd, div_self_pos hb hp, NumTy.mul, NumTy.add, NumTy.fit_inRange, h0, hn,
      reduce_wf hb hv]

theorem add_zero (hb : 1 < t.prim.bits) {a : Frac} (ha : a.Valid t) : add t a ⟨0, 1⟩ = .ok a := by
  have hv := ha
  obtain ⟨⟨hp, hc⟩, hn, hd⟩ := ha
  have h0 := t.prim.inRange_zero
  have h1 := IntTy.inRange_one hb
  unfold add addSub
  split
  · rename_i h
    simp only [NumTy.add, Int.add_zero, NumTy.fit_inRange hn, Res.bind_ok]
    simp only at h
    rw [← h]; exact reduce_wf hb hv
  · have hl : lcm t a.den 1 = .ok a.den := by
      simp [lcm, gcd_coprime hb, div_one, hd, h1, NumTy.mul, NumTy.fit_inRange, abs_of_pos hp]
    simp [hl, div_one, hd, div_self_pos hb hp, NumTy.mul, NumTy.add, NumTy.fit_inRange, h0, hn,
      reduce_wf hb hv]

theorem panicOnly_fit (x : Int) : PanicOnly (t.fit x) := by
  unfold NumTy.fit; split
  · exact fun e h => by cases h
  · split <;> intro e h <;> cases h; rfl

theorem panicOnly_div (x y : Int) : PanicOnly (t.div x y) := by
  unfold NumTy.div; split
  · intro e h; cases h; rfl
  · split <;> intro e h <;> cases h; rfl

theorem panicOnly_gcd (x y : Int) : PanicOnly (gcd t x y) := panicOnly_fit _

/-- multiplication is commutative, panics included -/
theorem mul_comm (a b : Frac) : mul t a b = mul t b a := by
  have e1 : gcd t b.den a.num = gcd t a.num b.den := by rw [gcd, gcd, Int.gcd_comm]
  have e2 : gcd t b.num a.den = gcd t a.den b.num := by rw [gcd, gcd, Int.gcd_comm]
  unfold mul
  rw [e1, e2, Res.swap (panicOnly_gcd _ _) (panicOnly_gcd _ _)]
  congr; funext g2; congr; funext g1
  rw [Res.swap (panicOnly_div _ _) (panicOnly_div _ _)]
  congr; funext n2; congr; funext n1
  have e3 : t.mul n1 n2 = t.mul n2 n1 := by rw [NumTy.mul, NumTy.mul, _root_.mul_comm]
  rw [e3]
  congr; funext n
  rw [Res.swap (panicOnly_div _ _) (panicOnly_div _ _)]
  congr; funext d2; congr; funext d1
  have e3 : t.mul d1 d2 = t.mul d2 d1 := by rw [NumTy.mul, NumTy.mul, _root_.mul_comm]
  rw [e3]

theorem lcm_comm {x y : Int} (hx : 0 < x) (hy : 0 < y) (rx : t.prim.InRange x) (ry : t.prim.InRange y) :
    lcm t x y = lcm t y x := by
  have h0 := t.prim.inRange_zero
  have gpos : 0 < (Int.gcd x y : Int) := by exact_mod_cast Int.gcd_pos_of_ne_zero_left y hx.ne'
  have v1 : (Int.gcd x y : Int) ∣ x := Int.gcd_dvd_left ..
  have v2 : (Int.gcd x y : Int) ∣ y := Int.gcd_dvd_right ..
  have hgr : t.prim.InRange (Int.gcd x y : Int) :=
    ⟨h0.1.trans gpos.le, (Int.le_of_dvd hx v1).trans rx.2⟩
  have hg : gcd t x y = .ok (Int.gcd x y : Int) := NumTy.fit_inRange hgr
  have hg' : gcd t y x = .ok (Int.gcd x y : Int) := by rw [gcd, Int.gcd_comm]; exact NumTy.fit_inRange hgr
  generalize (Int.gcd x y : Int) = g at *
  have dv : ∀ z, 0 < z → g ∣ z → t.prim.InRange z → t.div z g = .ok (z / g) := by
    intro z hz hd hr
    have h1 : 0 ≤ z / g := Int.ediv_nonneg hz.le gpos.le
    have h2 : z / g ≤ z := Int.ediv_le_self g hz.le
    rw [NumTy.div, if_neg gpos.ne', Int.tdiv_eq_ediv_of_dvd hd]
    exact if_pos ⟨h0.1.trans h1, h2.trans hr.2⟩
  simp only [lcm, hg, hg', Res.bind_ok, dv x hx v1 rx, dv y hy v2 ry, NumTy.mul]
  have : x * (y / g) = y * (x / g) := by
    obtain ⟨u, rfl⟩ := v1
    obtain ⟨w, rfl⟩ := v2
    rw [Int.mul_ediv_cancel_left _ gpos.ne', Int.mul_ediv_cancel_left _ gpos.ne']; ring
  rw [this]

/-- addition is commutative, panics included -/
theorem add_comm {a b : Frac} (ha : a.Valid t) (hb : b.Valid t) : add t a b = add t b a := by
  unfold add addSub
  have e3 : ∀ x y, t.add x y = t.add y x := fun x y => by rw [NumTy.add, NumTy.add, _root_.add_comm]
  by_cases h : a.den = b.den
  · rw [if_pos h, if_pos h.symm, e3, h]
  · rw [if_neg h, if_neg (Ne.symm h), lcm_comm ha.1.pos hb.1.pos ha.2.2 hb.2.2]
    congr; funext l
    -- the two scaled numerators are computed independently
    have s := Res.swap (x := t.div l a.den >>= fun qa => t.mul a.num qa)
      (y := t.div l b.den >>= fun qb => t.mul b.num qb)
      (PanicOnly.bind (panicOnly_div _ _) fun _ => panicOnly_fit _)
      (PanicOnly.bind (panicOnly_div _ _) fun _ => panicOnly_fit _)
      (fun na nb => t.add na nb >>= fun n => reduce t ⟨n, l⟩)
    simp only [bind_assoc] at s
    rw [s]
    congr; funext qb; congr; funext nb; congr; funext qa; congr; funext na
    rw [e3]

end Frac
end BSQ
