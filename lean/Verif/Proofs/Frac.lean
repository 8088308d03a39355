import Verif.Spec.Rational
import Verif.Proofs.Num
import Mathlib.Tactic.FieldSimp
import Mathlib.Tactic.Positivity
import Mathlib.Tactic.Push
import Mathlib.Tactic.NormNum
import Mathlib.RingTheory.Coprime.Lemmas
import Mathlib.RingTheory.Int.Basic
/-! Helper lemmas: checked fraction arithmetic computes exact rationals. -/
namespace BSQ

namespace NumTy
theorem div_eq_ok {t : NumTy} {a b q : Int} :
    t.div a b = .ok q ↔ b ≠ 0 ∧ q = a.tdiv b ∧ t.prim.InRange (a.tdiv b) := by
  unfold NumTy.div
  by_cases h : b = 0 <;> by_cases h' : t.prim.InRange (a.tdiv b) <;> simp [h, h', eq_comm]

theorem rem_eq_ok {t : NumTy} {a b q : Int} :
    t.rem a b = .ok q ↔ b ≠ 0 ∧ q = a.tmod b ∧ t.prim.InRange (a.tdiv b) := by
  unfold NumTy.rem
  by_cases h : b = 0 <;> by_cases h' : t.prim.InRange (a.tdiv b) <;> simp [h, h', eq_comm]
end NumTy

namespace Frac
variable {t : NumTy}

theorem gcd_ok (h : t.ovf = .panic) {a b g : Int} (e : gcd t a b = .ok g) : g = Int.gcd a b :=
  ((NumTy.fit_panic h).1 e).1

theorem WF.den_ne {f : Frac} (h : f.WF) : (f.den : ℚ) ≠ 0 := by
  have := h.pos; exact_mod_cast this.ne'

theorem toRat_int (z : Int) : (⟨z, 1⟩ : Frac).toRat = z := by simp [toRat]

theorem wf_int (z : Int) : (⟨z, 1⟩ : Frac).WF := ⟨Int.one_pos, by simp⟩

/-- fractions in lowest terms are determined by the rational they denote -/
theorem toRat_inj {a b : Frac} (ha : a.WF) (hb : b.WF) (h : a.toRat = b.toRat) : a = b := by
  obtain ⟨n, d⟩ := a
  obtain ⟨m, e⟩ := b
  have h1 := ha.pos; have h2 := hb.pos; have h3 := ha.coprime; have h4 := hb.coprime
  simp only at h1 h2 h3 h4
  have hd : (d : ℚ) ≠ 0 := ha.den_ne
  have he : (e : ℚ) ≠ 0 := hb.den_ne
  simp only [toRat] at h
  rw [div_eq_div_iff hd he] at h
  have h' : n * e = m * d := by exact_mod_cast h
  have hde : d ∣ e := by
    have : d ∣ n * e := ⟨m, by rw [h']; ring⟩
    exact IsCoprime.dvd_of_dvd_mul_left (Int.isCoprime_iff_gcd_eq_one.2 (by rw [Int.gcd_comm]; exact h3)) this
  have hed : e ∣ d := by
    have : e ∣ m * d := ⟨n, by rw [← h']; ring⟩
    exact IsCoprime.dvd_of_dvd_mul_left (Int.isCoprime_iff_gcd_eq_one.2 (by rw [Int.gcd_comm]; exact h4)) this
  have hee : d = e := Int.dvd_antisymm h1.le h2.le hde hed
  subst hee
  have : n = m := by
    have := h'
    exact mul_right_cancel₀ (ne_of_gt h1) this
  rw [this]

/-- `reduce` keeps the value and produces lowest terms -/
theorem reduce_ok (h : t.ovf = .panic) {a r : Frac} (e : reduce t a = .ok r) :
    a.den ≠ 0 ∧ r.WF ∧ r.toRat = a.toRat := by
  obtain ⟨n, d⟩ := a
  unfold reduce at e
  simp only at e
  split at e
  · cases e
  rename_i hd0
  refine ⟨hd0, ?_⟩
  split at e
  · rename_i hn; cases e; subst hn; simp [wf_int, toRat]
  rename_i hn0
  split at e
  · rename_i hnd; cases e; subst hnd
    refine ⟨wf_int 1, ?_⟩
    have : (n : ℚ) ≠ 0 := by exact_mod_cast hn0
    simp [toRat, this]
  simp only [Res.bind_eq_ok] at e
  obtain ⟨g, hg, n', hn', d', hd', e⟩ := e
  have hg := gcd_ok h hg
  have hgn : (g : Int) ∣ n := by rw [hg]; exact Int.gcd_dvd_left ..
  have hgd : (g : Int) ∣ d := by rw [hg]; exact Int.gcd_dvd_right ..
  have hgpos : 0 < g := by rw [hg]; exact_mod_cast Int.gcd_pos_of_ne_zero_left d hn0
  obtain ⟨_, rfl, _⟩ := NumTy.div_eq_ok.1 hn'
  obtain ⟨_, rfl, _⟩ := NumTy.div_eq_ok.1 hd'
  rw [Int.tdiv_eq_ediv_of_dvd hgn, Int.tdiv_eq_ediv_of_dvd hgd] at e
  have hco : Int.gcd (n / g) (d / g) = 1 := by
    rw [hg]
    exact Int.gcd_ediv_gcd_ediv_gcd_of_ne_zero_left hn0
  have hval : ((n / g : Int) : ℚ) / ((d / g : Int) : ℚ) = n / d := by
    have hgq : (g : ℚ) ≠ 0 := by exact_mod_cast hgpos.ne'
    obtain ⟨x, rfl⟩ := hgn
    obtain ⟨y, rfl⟩ := hgd
    rw [Int.mul_ediv_cancel_left _ hgpos.ne', Int.mul_ediv_cancel_left _ hgpos.ne']
    push_cast
    rw [mul_div_mul_left _ _ hgq]
  have hdne : d / g ≠ 0 := by
    obtain ⟨y, rfl⟩ := hgd
    rw [Int.mul_ediv_cancel_left _ hgpos.ne']
    intro hy; apply hd0; simp [hy]
  split at e
  · rename_i hneg
    simp only [Res.bind_eq_ok, NumTy.sub, NumTy.fit_panic h] at e
    obtain ⟨x, ⟨rfl, _⟩, y, ⟨rfl, _⟩, e⟩ := e
    cases e
    refine ⟨⟨by simp only; omega, by simpa using hco⟩, ?_⟩
    simp only [toRat, zero_sub, Int.cast_neg, neg_div_neg_eq]
    exact hval
  · rename_i hneg
    cases e
    exact ⟨⟨by simp only; omega, hco⟩, hval⟩

theorem new_ok (h : t.ovf = .panic) {n d : Int} {r : Frac} (e : new t n d = .ok r) :
    d ≠ 0 ∧ r.WF ∧ r.toRat = (n : ℚ) / d := reduce_ok h e

theorem mul_ok (h : t.ovf = .panic) {a b r : Frac} (ha : a.WF) (hb : b.WF)
    (e : mul t a b = .ok r) : r.WF ∧ r.toRat = a.toRat * b.toRat := by
  obtain ⟨n1, d1⟩ := a
  obtain ⟨n2, d2⟩ := b
  have p1 := ha.pos; have p2 := hb.pos; have c1 := ha.coprime; have c2 := hb.coprime
  simp only at p1 p2 c1 c2
  simp only [mul, Res.bind_eq_ok, NumTy.mul, NumTy.fit_panic h, NumTy.div_eq_ok] at e
  obtain ⟨g1, hg1, g2, hg2, x, ⟨_, rfl, _⟩, w, ⟨_, rfl, _⟩, _, ⟨rfl, _⟩, u, ⟨_, rfl, _⟩, y,
    ⟨_, rfl, _⟩, _, ⟨rfl, _⟩, e⟩ := e
  have hg1 := gcd_ok h hg1
  have hg2 := gcd_ok h hg2
  have q1 : 0 < g1 := by rw [hg1]; exact_mod_cast Int.gcd_pos_of_ne_zero_right n1 p2.ne'
  have q2 : 0 < g2 := by rw [hg2]; exact_mod_cast Int.gcd_pos_of_ne_zero_left n2 p1.ne'
  have v1 : g1 ∣ n1 := by rw [hg1]; exact Int.gcd_dvd_left ..
  have v2 : g1 ∣ d2 := by rw [hg1]; exact Int.gcd_dvd_right ..
  have v3 : g2 ∣ d1 := by rw [hg2]; exact Int.gcd_dvd_left ..
  have v4 : g2 ∣ n2 := by rw [hg2]; exact Int.gcd_dvd_right ..
  rw [Int.tdiv_eq_ediv_of_dvd v1, Int.tdiv_eq_ediv_of_dvd v2, Int.tdiv_eq_ediv_of_dvd v3,
    Int.tdiv_eq_ediv_of_dvd v4] at e
  clear hg1 hg2
  obtain ⟨x, rfl⟩ := v1
  obtain ⟨y, rfl⟩ := v2
  obtain ⟨u, rfl⟩ := v3
  obtain ⟨w, rfl⟩ := v4
  rw [Int.mul_ediv_cancel_left _ q1.ne', Int.mul_ediv_cancel_left _ q1.ne'] at *
  rw [Int.mul_ediv_cancel_left _ q2.ne', Int.mul_ediv_cancel_left _ q2.ne'] at *
  have hy : 0 < y := by by_contra hy; nlinarith
  have hu : 0 < u := by by_contra hu; nlinarith
  obtain ⟨_, hr, er⟩ := reduce_ok h e
  refine ⟨hr, er.trans ?_⟩
  have e1 : (g1 : ℚ) ≠ 0 := by exact_mod_cast q1.ne'
  have e2 : (g2 : ℚ) ≠ 0 := by exact_mod_cast q2.ne'
  have e3 : (y : ℚ) ≠ 0 := by exact_mod_cast hy.ne'
  have e4 : (u : ℚ) ≠ 0 := by exact_mod_cast hu.ne'
  simp only [toRat]; push_cast; field_simp

theorem lcm_ok (h : t.ovf = .panic) {a b l : Int} (ha : 0 < a) (hb : 0 < b)
    (e : lcm t a b = .ok l) : 0 < l ∧ a ∣ l ∧ b ∣ l := by
  simp only [lcm, Res.bind_eq_ok, NumTy.mul, NumTy.fit_panic h, NumTy.div_eq_ok] at e
  obtain ⟨g, hg, q, ⟨_, rfl, _⟩, r, ⟨rfl, _⟩, rfl, _⟩ := e
  have hg := gcd_ok h hg
  have q1 : 0 < g := by rw [hg]; exact_mod_cast Int.gcd_pos_of_ne_zero_left b ha.ne'
  have v1 : g ∣ a := by rw [hg]; exact Int.gcd_dvd_left ..
  have v2 : g ∣ b := by rw [hg]; exact Int.gcd_dvd_right ..
  rw [Int.tdiv_eq_ediv_of_dvd v2]
  clear hg
  obtain ⟨x, rfl⟩ := v1
  obtain ⟨y, rfl⟩ := v2
  rw [Int.mul_ediv_cancel_left _ q1.ne']
  have hy : 0 < y := by by_contra hy; nlinarith
  have hx : 0 < x := by by_contra hx; nlinarith
  have hp : 0 < g * x * y := by positivity
  rw [Int.natAbs_of_nonneg hp.le]
  exact ⟨hp, ⟨y, rfl⟩, ⟨x, by ring⟩⟩

theorem addSub_ok (h : t.ovf = .panic) {a b r : Frac} (ha : 0 < a.den) (hb : 0 < b.den)
    {op : Int → Int → Res Int} {f : ℚ → ℚ → ℚ} (hf : ∀ x y z : ℚ, f x y / z = f (x / z) (y / z))
    (hop : ∀ x y z, op x y = .ok z → (z : ℚ) = f x y)
    (e : addSub t op a b = .ok r) : r.WF ∧ r.toRat = f a.toRat b.toRat := by
  obtain ⟨n1, d1⟩ := a
  obtain ⟨n2, d2⟩ := b
  simp only at ha hb
  unfold addSub at e
  split at e
  · rename_i hd
    simp only at hd
    subst hd
    simp only [Res.bind_eq_ok] at e
    obtain ⟨n, hn, e⟩ := e
    obtain ⟨_, hw, hv⟩ := reduce_ok h e
    refine ⟨hw, hv.trans ?_⟩
    simp only [toRat, hop _ _ _ hn, hf]
  · simp only [Res.bind_eq_ok, NumTy.mul, NumTy.fit_panic h, NumTy.div_eq_ok] at e
    obtain ⟨l, hl, qa, ⟨_, rfl, _⟩, na, ⟨rfl, _⟩, qb, ⟨_, rfl, _⟩, nb, ⟨rfl, _⟩, n, hn, e⟩ := e
    obtain ⟨hl0, ⟨u, hu⟩, ⟨w, hw⟩⟩ := lcm_ok h ha hb hl
    obtain ⟨_, hwf, hv⟩ := reduce_ok h e
    refine ⟨hwf, hv.trans ?_⟩
    simp only [toRat]
    rw [Int.tdiv_eq_ediv_of_dvd ⟨u, hu⟩, Int.tdiv_eq_ediv_of_dvd ⟨w, hw⟩] at hn
    have hla : l / d1 = u := by rw [hu, Int.mul_ediv_cancel_left _ ha.ne']
    have hlb : l / d2 = w := by rw [hw, Int.mul_ediv_cancel_left _ hb.ne']
    rw [hla, hlb] at hn
    rw [hop _ _ _ hn, hf]
    have e1 : (d1 : ℚ) ≠ 0 := by exact_mod_cast ha.ne'
    have e2 : (d2 : ℚ) ≠ 0 := by exact_mod_cast hb.ne'
    have hu0 : (u : ℚ) ≠ 0 := by rintro hz; have : u = 0 := by exact_mod_cast hz
                                 subst this; omega
    have hw0 : (w : ℚ) ≠ 0 := by rintro hz; have : w = 0 := by exact_mod_cast hz
                                 subst this; omega
    congr 1
    · rw [hu]; push_cast; rw [mul_div_mul_right _ _ hu0]
    · rw [hw]; push_cast; rw [mul_div_mul_right _ _ hw0]

theorem add_ok (h : t.ovf = .panic) {a b r : Frac} (ha : a.WF) (hb : b.WF)
    (e : add t a b = .ok r) : r.WF ∧ r.toRat = a.toRat + b.toRat :=
  addSub_ok h ha.pos hb.pos (f := (· + ·)) (fun x y z => add_div x y z)
    (fun x y z e => by rw [((NumTy.fit_panic h).1 e).1]; push_cast; rfl) e

theorem sub_ok (h : t.ovf = .panic) {a b r : Frac} (ha : 0 < a.den) (hb : 0 < b.den)
    (e : sub t a b = .ok r) : r.WF ∧ r.toRat = a.toRat - b.toRat :=
  addSub_ok h ha hb (f := (· - ·)) (fun x y z => sub_div x y z)
    (fun x y z e => by rw [((NumTy.fit_panic h).1 e).1]; push_cast; rfl) e

theorem lt_iff {a b : Frac} (ha : 0 < a.den) (hb : 0 < b.den) :
    lt a b = true ↔ a.toRat < b.toRat := by
  have e1 : (0 : ℚ) < a.den := by exact_mod_cast ha
  have e2 : (0 : ℚ) < b.den := by exact_mod_cast hb
  simp only [lt, decide_eq_true_eq, toRat]
  rw [div_lt_div_iff₀ e1 e2]
  exact_mod_cast Iff.rfl

theorem min_spec {a b : Frac} (ha : a.WF) (hb : b.WF) :
    (min a b).WF ∧ (min a b).toRat = Min.min a.toRat b.toRat := by
  unfold min; split
  · rename_i h; rw [lt_iff hb.pos ha.pos] at h; exact ⟨hb, (min_eq_right h.le).symm⟩
  · rename_i h; rw [lt_iff hb.pos ha.pos] at h; exact ⟨ha, (min_eq_left (not_lt.1 h)).symm⟩

theorem max_spec {a b : Frac} (ha : a.WF) (hb : b.WF) :
    (max a b).WF ∧ (max a b).toRat = Max.max a.toRat b.toRat := by
  unfold max; split
  · rename_i h; rw [lt_iff hb.pos ha.pos] at h; exact ⟨ha, (max_eq_left h.le).symm⟩
  · rename_i h; rw [lt_iff hb.pos ha.pos] at h; exact ⟨hb, (max_eq_right (not_lt.1 h)).symm⟩

end Frac
end BSQ
