import Verif.Model.Ratio
import Verif.Proofs.FracRange
import Verif.Proofs.Rounding
import Mathlib.Order.Compare
/-! Helper lemmas: division, remainder and comparison of fractions are exact. -/
namespace BSQ

theorem rounds_tdiv {x y : Int} (hy : y ≠ 0) : Rounds .truncate ((x : ℚ) / y) (x.tdiv y) := by
  rcases lt_or_gt_of_ne hy with h | h
  · have := Frac.rounds_trunc (a := ⟨-x, -y⟩) (by simpa using h)
    simpa [Frac.toRat, Int.neg_tdiv, Int.tdiv_neg] using this
  · exact Frac.rounds_trunc (a := ⟨x, y⟩) h

/-- `x` rounded toward zero -/
def truncQ (x : ℚ) : ℤ := if 0 ≤ x then ⌊x⌋ else ⌈x⌉

theorem rounds_truncQ (x : ℚ) : Rounds .truncate x (truncQ x) := by
  unfold truncQ
  split
  · rename_i h
    have h1 : (0 : ℚ) ≤ ⌊x⌋ := by exact_mod_cast Int.floor_nonneg.2 h
    exact ⟨by rw [abs_of_nonneg h1, abs_of_nonneg h]; exact Int.floor_le x,
      by rw [abs_of_nonneg h1, abs_of_nonneg h]; exact Int.lt_floor_add_one x, mul_nonneg h1 h⟩
  · rename_i h
    have h := not_le.1 h
    have h1 : (⌈x⌉ : ℚ) ≤ 0 := by exact_mod_cast Int.ceil_le.2 (by exact_mod_cast h.le)
    refine ⟨?_, ?_, ?_⟩
    · rw [abs_of_nonpos h1, abs_of_neg h]; linarith [Int.le_ceil x]
    · rw [abs_of_nonpos h1, abs_of_neg h]; linarith [Int.ceil_lt_add_one x]
    · exact mul_nonneg_of_nonpos_of_nonpos h1 h.le

namespace Frac
variable {t : NumTy}

theorem div_ok (h : t.ovf = .panic) {a b r : Frac} (ha : a.WF) (hb : b.WF)
    (e : div t a b = .ok r) : r.WF ∧ b.toRat ≠ 0 ∧ r.toRat = a.toRat / b.toRat := by
  obtain ⟨n1, d1⟩ := a
  obtain ⟨n2, d2⟩ := b
  have p1 := ha.pos; have p2 := hb.pos
  simp only at p1 p2
  simp only [div, Res.bind_eq_ok, NumTy.mul, NumTy.fit_panic h, NumTy.div_eq_ok] at e
  obtain ⟨g1, hg1, g2, hg2, x, ⟨hg0, rfl, _⟩, w, ⟨_, rfl, _⟩, _, ⟨rfl, _⟩, u, ⟨_, rfl, _⟩, y,
    ⟨_, rfl, _⟩, _, ⟨rfl, _⟩, e⟩ := e
  have hg1 := gcd_ok h hg1
  have hg2 := gcd_ok h hg2
  have q2 : 0 < g2 := by rw [hg2]; exact_mod_cast Int.gcd_pos_of_ne_zero_left d2 p1.ne'
  have v1 : g1 ∣ n1 := by rw [hg1]; exact Int.gcd_dvd_left ..
  have v2 : g1 ∣ n2 := by rw [hg1]; exact Int.gcd_dvd_right ..
  have v3 : g2 ∣ d1 := by rw [hg2]; exact Int.gcd_dvd_left ..
  have v4 : g2 ∣ d2 := by rw [hg2]; exact Int.gcd_dvd_right ..
  rw [Int.tdiv_eq_ediv_of_dvd v1, Int.tdiv_eq_ediv_of_dvd v2, Int.tdiv_eq_ediv_of_dvd v3,
    Int.tdiv_eq_ediv_of_dvd v4] at e
  clear hg1 hg2
  obtain ⟨x, rfl⟩ := v1
  obtain ⟨y, rfl⟩ := v2
  obtain ⟨u, rfl⟩ := v3
  obtain ⟨w, rfl⟩ := v4
  rw [Int.mul_ediv_cancel_left _ hg0, Int.mul_ediv_cancel_left _ hg0] at *
  rw [Int.mul_ediv_cancel_left _ q2.ne', Int.mul_ediv_cancel_left _ q2.ne'] at *
  have hw : 0 < w := by by_contra hy; nlinarith
  have hu : 0 < u := by by_contra hu; nlinarith
  obtain ⟨hd, hr, er⟩ := reduce_ok h e
  simp only at hd
  have hy : y ≠ 0 := by rintro rfl; simp at hd
  have e1 : (g1 : ℚ) ≠ 0 := by exact_mod_cast hg0
  have e2 : (g2 : ℚ) ≠ 0 := by exact_mod_cast q2.ne'
  have e3 : (y : ℚ) ≠ 0 := by exact_mod_cast hy
  have e4 : (u : ℚ) ≠ 0 := by exact_mod_cast hu.ne'
  have e5 : (w : ℚ) ≠ 0 := by exact_mod_cast hw.ne'
  refine ⟨hr, ?_, er.trans ?_⟩
  · simp only [toRat]; push_cast; positivity
  · simp only [toRat]; push_cast; field_simp

theorem rem_ok (h : t.ovf = .panic) {a b r : Frac} (ha : a.WF) (hb : b.WF) (e : rem t a b = .ok r) :
    r.WF ∧ b.toRat ≠ 0 ∧ r.toRat = a.toRat - b.toRat * truncQ (a.toRat / b.toRat) := by
  have := addSub_ok h ha.pos hb.pos (f := fun x y => x - y * truncQ (x / y)) (op := t.rem)
    (fun x y z => by
      by_cases hz : z = 0
      · subst hz; simp
      · rw [div_div_div_cancel_right₀ hz, sub_div]; ring)
    (fun x y z e => by
      rw [NumTy.rem_eq_ok] at e
      obtain ⟨hy, rfl, _⟩ := e
      have h1 := rounds_unique .truncate (rounds_tdiv (x := x) hy) (rounds_truncQ _)
      have h2 := Int.mul_tdiv_add_tmod x y
      rw [h1] at h2
      have h3 : (y : ℚ) * (truncQ ((x : ℚ) / y) : ℚ) + (x.tmod y : ℚ) = x := by exact_mod_cast h2
      linarith) e
  refine ⟨this.1, ?_, this.2⟩
  have hne : b.num ≠ 0 := by
    intro hz
    unfold rem addSub at e
    split at e
    · simp [hz, NumTy.rem] at e
    · simp only [Res.bind_eq_ok, hz, NumTy.mul] at e
      obtain ⟨l, hl, qa, _, na, _, qb, _, nb, hnb, n, hn, _⟩ := e
      rw [zero_mul, NumTy.fit_inRange t.prim.inRange_zero] at hnb
      cases hnb
      simp [NumTy.rem] at hn
  have hd := hb.pos.ne'
  simp only [toRat]
  exact div_ne_zero (by exact_mod_cast hne) (by exact_mod_cast hd)

end Frac

/-- for a positive divisor this is Euclidean division, without overflow in any build -/
theorem NumTy.divModFloor_pos {t : NumTy} {x y : Int} (hy : 0 < y) (rx : t.prim.InRange x)
    (ry : t.prim.InRange y) : t.divModFloor x y = .ok (x / y, x % y) := by
  have h0 := t.prim.inRange_zero
  have hm0 : 0 ≤ x % y := Int.emod_nonneg x hy.ne'
  have hm1 : x % y < y := Int.emod_lt_of_pos x hy
  have he := Int.mul_ediv_add_emod x y
  have hd := Int.tdiv_eq_ediv (a := x) (b := y)
  have hr := Int.tmod_eq_emod (a := x) (b := y)
  have hdx : t.prim.InRange (x / y) := by
    rcases le_or_gt 0 x with hx | hx
    · exact ⟨h0.1.trans (Int.ediv_nonneg hx hy.le), (Int.ediv_le_self y hx).trans rx.2⟩
    · have h1 : x / y < 0 := Int.ediv_neg_of_neg_of_pos hx hy
      refine ⟨rx.1.trans ?_, h1.le.trans h0.2⟩
      nlinarith
  have hmr : t.prim.InRange (x % y) := ⟨h0.1.trans hm0, hm1.le.trans ry.2⟩
  by_cases hc : 0 ≤ x ∨ y ∣ x
  · rw [if_pos hc, Int.add_zero] at hd
    rw [if_pos hc] at hr
    have hr : x.tmod y = x % y := by omega
    have h1 : ¬ ((0 < x % y ∧ y < 0) ∨ (x % y < 0 ∧ 0 < y)) := by omega
    simp [divModFloor, NumTy.div, NumTy.rem, hy.ne', hd, hdx, hr, h1]
  · rw [if_neg hc, Int.sign_eq_one_of_pos hy] at hd
    rw [if_neg hc] at hr
    have hz : x % y ≠ 0 := fun h => hc (.inr (Int.dvd_of_emod_eq_zero h))
    have hx : x < 0 := by by_contra h; exact hc (.inl (not_lt.1 h))
    have hr : x.tmod y = x % y - y := by omega
    have h1 : (0 < x % y - y ∧ y < 0) ∨ (x % y - y < 0 ∧ 0 < y) := by omega
    have h2 : t.prim.InRange (x / y + 1) := by
      have : x / y < 0 := Int.ediv_neg_of_neg_of_pos hx hy
      exact ⟨hdx.1.trans (by omega), (show x / y + 1 ≤ 0 by omega).trans h0.2⟩
    simp only [divModFloor, NumTy.div, NumTy.rem, hy.ne', hd, h2, hr, h1, NumTy.sub, NumTy.add, if_false, if_true,
      Res.bind_ok, add_sub_cancel_right, sub_add_cancel, NumTy.fit_inRange hdx, NumTy.fit_inRange hmr]

theorem compare_congr {α β : Type} [LinearOrder α] [LinearOrder β] {a b : α} {c d : β} (h1 : a < b ↔ c < d)
    (h2 : a = b ↔ c = d) : compare a b = compare c d := by
  rcases lt_trichotomy a b with h | h | h
  · rw [compare_lt_iff_lt.2 h, compare_lt_iff_lt.2 (h1.1 h)]
  · rw [compare_eq_iff_eq.2 h, compare_eq_iff_eq.2 (h2.1 h)]
  · have : d < c := lt_of_le_of_ne (not_lt.1 fun k => lt_asymm h (h1.2 k)) fun k => h.ne' (h2.2 k.symm)
    rw [compare_gt_iff_gt.2 h, compare_gt_iff_gt.2 this]

theorem compare_swap_congr {α β : Type} [LinearOrder α] [LinearOrder β] {a b : α} {c d : β} (h1 : b < a ↔ c < d)
    (h2 : a = b ↔ c = d) : (compare a b).swap = compare c d := by
  rw [← compare_congr (a := b) (b := a) h1 (by rw [eq_comm, h2])]
  rcases lt_trichotomy a b with h | h | h
  · rw [compare_lt_iff_lt.2 h, compare_gt_iff_gt.2 h]; rfl
  · rw [compare_eq_iff_eq.2 h, compare_eq_iff_eq.2 h.symm]; rfl
  · rw [compare_lt_iff_lt.2 h, compare_gt_iff_gt.2 h]; rfl

namespace Frac
variable {t : NumTy}

theorem toRat_floor {n d : Int} (hd : 0 < d) : (n : ℚ) / d = (n / d : ℤ) + ((n % d : ℤ) : ℚ) / d := by
  have e1 : (d : ℚ) ≠ 0 := by exact_mod_cast hd.ne'
  have h : (n : ℚ) = d * (n / d : ℤ) + (n % d : ℤ) := by exact_mod_cast (Int.mul_ediv_add_emod n d).symm
  conv_lhs => rw [h]
  field_simp

theorem fract_lt {n d : Int} (hd : 0 < d) : 0 ≤ ((n % d : ℤ) : ℚ) / d ∧ ((n % d : ℤ) : ℚ) / d < 1 :=
  (fract_bounds hd).1 (Int.emod_nonneg n hd.ne') (Int.emod_lt_of_pos n hd)

/-- with positive denominators the algorithm compares the rationals, without overflow in any build -/
theorem cmpFuel_eq (fuel : Nat) : ∀ (a b : Frac), 0 < a.den → 0 < b.den → a.Fits t → b.Fits t →
    a.den.natAbs < fuel → cmpFuel t fuel a b = .ok (compare a.toRat b.toRat) := by
  induction fuel with
  | zero => intro a b _ _ _ _ h; omega
  | succ fuel ih =>
    rintro ⟨n, d⟩ ⟨m, e⟩ hd he ⟨rn, rd⟩ ⟨rm, re⟩ hf
    simp only at hd he rn rd rm re hf
    have qd : (0 : ℚ) < d := by exact_mod_cast hd
    have qe : (0 : ℚ) < e := by exact_mod_cast he
    unfold cmpFuel
    simp only [toRat]
    split
    · rename_i h; subst h
      rw [if_neg (not_lt.2 hd.le)]
      refine congrArg _ (compare_congr ?_ ?_)
      · rw [div_lt_div_iff_of_pos_right qd]; exact_mod_cast Iff.rfl
      · rw [div_left_inj' qd.ne']; exact_mod_cast Iff.rfl
    split
    · rename_i hde h; subst h
      split
      · rename_i h; subst h; simp
      rename_i h0
      have hq : (n : ℚ) ≠ 0 := by exact_mod_cast h0
      have heq : d = e ↔ (n : ℚ) / d = n / e := by
        rw [div_eq_div_iff qd.ne' qe.ne', mul_right_inj' hq]
        exact ⟨fun h => by exact_mod_cast h.symm, fun h => by exact_mod_cast h.symm⟩
      split
      · rename_i hn
        have hn' : (n : ℚ) < 0 := by exact_mod_cast hn
        refine congrArg _ (compare_congr ?_ heq)
        rw [div_lt_div_iff₀ qd qe, mul_lt_mul_left_of_neg hn']; exact_mod_cast Iff.rfl
      · rename_i hn
        have hn' : (0 : ℚ) < n := by exact_mod_cast (lt_of_le_of_ne (not_lt.1 hn) (Ne.symm h0))
        refine congrArg _ (compare_swap_congr ?_ heq)
        rw [div_lt_div_iff₀ qd qe, mul_lt_mul_iff_right₀ hn']; exact_mod_cast Iff.rfl
    rename_i hde hnm
    rw [NumTy.divModFloor_pos hd rn rd, NumTy.divModFloor_pos he rm re]
    simp only [Res.bind_ok]
    rw [toRat_floor (n := n) hd, toRat_floor (n := m) he]
    obtain ⟨f0, f1⟩ := fract_lt (n := n) hd
    obtain ⟨g0, g1⟩ := fract_lt (n := m) he
    have hm0 := Int.emod_nonneg n hd.ne'
    have hm1 := Int.emod_lt_of_pos n hd
    have km0 := Int.emod_nonneg m he.ne'
    have km1 := Int.emod_lt_of_pos m he
    generalize n % d = r at *
    generalize m % e = s at *
    generalize n / d = x at *
    generalize m / e = y at *
    rcases lt_trichotomy x y with h | h | h
    · have h' : (x : ℚ) + 1 ≤ y := by exact_mod_cast h
      rw [compare_lt_iff_lt.2 h]
      exact congrArg _ (compare_lt_iff_lt.2 (by linarith)).symm
    · subst h
      rw [compare_eq_iff_eq.2 rfl]
      simp only
      have hsum : compare ((x : ℚ) + (r : ℚ) / d) (x + (s : ℚ) / e) = compare ((r : ℚ) / d) ((s : ℚ) / e) :=
        compare_congr (by simp) (by simp)
      rw [hsum]
      split
      · rename_i hr; subst hr
        split
        · rename_i hs; subst hs; simp
        · rename_i hs
          have : (0 : ℚ) < s := by exact_mod_cast lt_of_le_of_ne km0 (Ne.symm hs)
          refine congrArg _ (compare_lt_iff_lt.2 ?_).symm
          rw [Int.cast_zero, zero_div]; positivity
      rename_i hr
      have hr0 : 0 < r := lt_of_le_of_ne hm0 (Ne.symm hr)
      have qr : (0 : ℚ) < r := by exact_mod_cast hr0
      split
      · rename_i hs; subst hs
        refine congrArg _ (compare_gt_iff_gt.2 ?_).symm
        rw [Int.cast_zero, zero_div]; positivity
      rename_i hs
      have hs0 : 0 < s := lt_of_le_of_ne km0 (Ne.symm hs)
      have qs : (0 : ℚ) < s := by exact_mod_cast hs0
      have h0 := t.prim.inRange_zero
      rw [ih ⟨d, r⟩ ⟨e, s⟩ hr0 hs0 ⟨rd, h0.1.trans hm0, hm1.le.trans rd.2⟩
        ⟨re, h0.1.trans km0, km1.le.trans re.2⟩ (by simp only; omega)]
      simp only [Res.bind_ok, toRat]
      refine congrArg _ (compare_swap_congr ?_ ?_)
      · rw [div_lt_div_iff₀ qs qr, div_lt_div_iff₀ qd qe, _root_.mul_comm (e : ℚ), _root_.mul_comm (d : ℚ)]
      · rw [div_eq_div_iff qr.ne' qs.ne', div_eq_div_iff qd.ne' qe.ne']
        constructor <;> intro h <;> linarith
    · have h' : (y : ℚ) + 1 ≤ x := by exact_mod_cast h
      rw [compare_gt_iff_gt.2 h]
      exact congrArg _ (compare_gt_iff_gt.2 (by linarith)).symm

theorem cmp_eq {a b : Frac} (ha : 0 < a.den) (hb : 0 < b.den) (fa : a.Fits t) (fb : b.Fits t) :
    cmp t a b = .ok (compare a.toRat b.toRat) := cmpFuel_eq _ a b ha hb fa fb (by omega)

end Frac
end BSQ
