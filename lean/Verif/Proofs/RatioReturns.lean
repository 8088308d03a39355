import Verif.Spec.Ratio
import Verif.Proofs.Ratio
/-! Helper lemmas: fraction arithmetic returns when the numbers met by hand are representable. -/
namespace BSQ

theorem IntTy.lo_of_neg {t : IntTy} {y : Int} (h : t.InRange y) (hy : y < 0) : t.lo = -t.hi - 1 := by
  have h1 := h.1
  by_cases hs : t.signed = true
  · simp only [IntTy.lo, IntTy.hi, hs, if_true]; omega
  · simp only [IntTy.lo, hs] at h1
    exact absurd (h1.trans_lt hy) (by simp)

namespace Frac
variable {t : NumTy}

theorem Small.of_mul {k z : Int} (hk : 0 < k) (h : Small t (k * z)) : Small t z := by
  have h0 := t.prim.inRange_zero
  have hz : |z| ≤ |k * z| := by
    rw [abs_mul, abs_of_pos hk]; nlinarith [abs_nonneg z]
  refine ⟨?_, hz.trans h.2⟩
  rcases le_or_gt 0 z with hs | hs
  · rw [abs_of_nonneg hs] at hz
    exact ⟨h0.1.trans hs, hz.trans h.2⟩
  · have : k * z ≤ z := by nlinarith
    exact ⟨h.1.1.trans this, hs.le.trans h0.2⟩

theorem Small.neg {z w : Int} (h : Small t z) (hw : t.prim.InRange w) (hn : w < 0) : t.prim.InRange (-z) := by
  have := IntTy.lo_of_neg hw hn
  have h2 := abs_le.1 h.2
  exact ⟨by omega, by omega⟩

theorem small_pos {x : Int} (hx : 0 < x) (h : t.prim.InRange x) : Small t x :=
  ⟨h, by rw [abs_of_pos hx]; exact h.2⟩

theorem div_mul_left {g x : Int} (hg : 0 < g) (h : t.prim.InRange x) : t.div (g * x) g = .ok x := by
  have : (g * x).tdiv g = x := Int.mul_tdiv_cancel_left _ hg.ne'
  simp [NumTy.div, hg.ne', this, h]

theorem gcd_returns {x y : Int} (hy : y ≠ 0) (h : |y| ≤ t.prim.hi) :
    ∃ g u v, 0 < g ∧ gcd t x y = .ok g ∧ x = g * u ∧ y = g * v := by
  have hpos : 0 < (Int.gcd x y : Int) := by exact_mod_cast Int.gcd_pos_of_ne_zero_right x hy
  obtain ⟨u, hu⟩ : (Int.gcd x y : Int) ∣ x := Int.gcd_dvd_left ..
  obtain ⟨v, hv⟩ : (Int.gcd x y : Int) ∣ y := Int.gcd_dvd_right ..
  refine ⟨_, u, v, hpos, NumTy.fit_inRange ⟨t.prim.inRange_zero.1.trans hpos.le, ?_⟩, hu, hv⟩
  refine le_trans ?_ h
  exact Int.le_of_dvd (abs_pos.2 hy) ((dvd_abs _ _).2 ⟨v, hv⟩)

theorem gcd_returns' {x y : Int} (hx : x ≠ 0) (h : |x| ≤ t.prim.hi) :
    ∃ g u v, 0 < g ∧ gcd t x y = .ok g ∧ x = g * u ∧ y = g * v := by
  obtain ⟨g, u, v, h1, h2, h3, h4⟩ := gcd_returns (t := t) (x := y) hx h
  exact ⟨g, v, u, h1, by rw [gcd, Int.gcd_comm]; exact h2, h4, h3⟩

theorem reduce_returns {n d : Int} (hd : d ≠ 0) (hn : Small t n) (hd' : Small t d) :
    ∃ r, reduce t ⟨n, d⟩ = .ok r := by
  unfold reduce
  simp only [hd, if_false]
  split
  · exact ⟨_, rfl⟩
  split
  · exact ⟨_, rfl⟩
  obtain ⟨g, u, v, hg, e, rfl, rfl⟩ := gcd_returns (t := t) (x := n) hd hd'.2
  have hu := hn.of_mul hg
  have hv := hd'.of_mul hg
  rw [e]
  simp only [Res.bind_ok, div_mul_left hg hu.1, div_mul_left hg hv.1]
  split
  · rename_i h
    have h1 := hu.neg hv.1 h
    have h2 := hv.neg hv.1 h
    simp only [NumTy.sub, Int.zero_sub, NumTy.fit_inRange h1, NumTy.fit_inRange h2, Res.bind_ok]
    exact ⟨_, rfl⟩
  · exact ⟨_, rfl⟩

theorem mul_returns {a b : Frac} (ha : a.Valid t) (hb : b.Valid t) (h : Op.Fits t a b .mul) :
    ∃ r, mul t a b = .ok r := by
  obtain ⟨hn, hd⟩ := h
  have pa := ha.1.pos; have pb := hb.1.pos
  obtain ⟨n, d⟩ := a
  obtain ⟨m, e⟩ := b
  simp only at *
  have sd := small_pos pa ha.2.2
  have se := small_pos pb hb.2.2
  obtain ⟨g1, x, y, h1, e1, rfl, rfl⟩ := gcd_returns (t := t) (x := n) pb.ne' se.2
  obtain ⟨g2, u, w, h2, e2, rfl, rfl⟩ := gcd_returns' (t := t) (y := m) pa.ne' sd.2
  have hg : 0 < g1 * g2 := mul_pos h1 h2
  have k1 : Small t (x * w) := Small.of_mul hg (by rw [show g1 * g2 * (x * w) = g1 * x * (g2 * w) by ring]; exact hn)
  have k2 : Small t (u * y) := Small.of_mul hg (by rw [show g1 * g2 * (u * y) = g2 * u * (g1 * y) by ring]; exact hd)
  have r1 : t.prim.InRange x := by
    have hx : t.prim.InRange (g1 * x) := ha.2.1
    have h0 := t.prim.inRange_zero
    rcases le_or_gt 0 x with hs | hs
    · exact ⟨h0.1.trans hs, (show x ≤ g1 * x by nlinarith).trans hx.2⟩
    · exact ⟨hx.1.trans (show g1 * x ≤ x by nlinarith), hs.le.trans h0.2⟩
  have r2 : t.prim.InRange w := by
    have hx : t.prim.InRange (g2 * w) := hb.2.1
    have h0 := t.prim.inRange_zero
    rcases le_or_gt 0 w with hs | hs
    · exact ⟨h0.1.trans hs, (show w ≤ g2 * w by nlinarith).trans hx.2⟩
    · exact ⟨hx.1.trans (show g2 * w ≤ w by nlinarith), hs.le.trans h0.2⟩
  have hy : y ≠ 0 := by rintro rfl; simp at pb
  have hu : u ≠ 0 := by rintro rfl; simp at pa
  simp only [mul, e1, e2, Res.bind_ok, div_mul_left h1 r1, div_mul_left h2 r2, div_mul_left h2 (sd.of_mul h2).1,
    div_mul_left h1 (se.of_mul h1).1, NumTy.mul, NumTy.fit_inRange k1.1, NumTy.fit_inRange k2.1]
  exact reduce_returns (mul_ne_zero hu hy) k1 k2

theorem div_returns {a b : Frac} (ha : a.Valid t) (hb : b.Valid t) (h : Op.Fits t a b .div) :
    ∃ r, div t a b = .ok r := by
  obtain ⟨hm0, hn, hd⟩ := h
  have pa := ha.1.pos; have pb := hb.1.pos
  obtain ⟨n, d⟩ := a
  obtain ⟨m, e⟩ := b
  simp only at *
  have sd := small_pos pa ha.2.2
  have sm : Small t m := Small.of_mul pa hd
  have sn : Small t n := Small.of_mul pb (by rw [_root_.mul_comm]; exact hn)
  obtain ⟨g1, x, y, h1, e1, rfl, rfl⟩ := gcd_returns (t := t) (x := n) hm0 sm.2
  obtain ⟨g2, u, w, h2, e2, rfl, rfl⟩ := gcd_returns' (t := t) (y := e) pa.ne' sd.2
  have se := small_pos pb hb.2.2
  have hg : 0 < g1 * g2 := mul_pos h1 h2
  have k1 : Small t (x * w) := Small.of_mul hg (by rw [show g1 * g2 * (x * w) = g1 * x * (g2 * w) by ring]; exact hn)
  have k2 : Small t (u * y) := Small.of_mul hg (by rw [show g1 * g2 * (u * y) = g2 * u * (g1 * y) by ring]; exact hd)
  have hy : y ≠ 0 := by rintro rfl; simp at hm0
  have hu : u ≠ 0 := by rintro rfl; simp at pa
  simp only [div, e1, e2, Res.bind_ok, div_mul_left h1 (sn.of_mul h1).1, div_mul_left h2 (se.of_mul h2).1,
    div_mul_left h2 (sd.of_mul h2).1, div_mul_left h1 (sm.of_mul h1).1, NumTy.mul, NumTy.fit_inRange k1.1,
    NumTy.fit_inRange k2.1]
  exact reduce_returns (mul_ne_zero hu hy) k1 k2

/-- the shared pattern of `+`, `-` and `%` -/
theorem addSub_returns {op : Int → Int → Res Int} {a b : Frac} (ha : a.Valid t) (hb : b.Valid t)
    (h1 : Small t (a.num * b.den)) (h2 : Small t (b.num * a.den)) (h3 : Small t (a.den * b.den))
    (hop : ∀ k x y, 0 < k → a.num * b.den = k * x → b.num * a.den = k * y → ∃ z, op x y = .ok z ∧ Small t z) :
    ∃ r, addSub t op a b = .ok r := by
  have pa := ha.1.pos; have pb := hb.1.pos
  obtain ⟨n, d⟩ := a
  obtain ⟨m, e⟩ := b
  simp only at *
  have sd := small_pos pa ha.2.2
  have se := small_pos pb hb.2.2
  unfold addSub
  split
  · rename_i h
    simp only at h
    subst h
    obtain ⟨z, hz, sz⟩ := hop d n m pa (_root_.mul_comm ..) (_root_.mul_comm ..)
    simp only [hz, Res.bind_ok]
    exact reduce_returns pa.ne' sz sd
  · obtain ⟨g, u, w, hg, e1, rfl, rfl⟩ := gcd_returns (t := t) (x := d) pb.ne' se.2
    have k1 : Small t (g * u * w) := Small.of_mul hg (by rw [show g * (g * u * w) = g * u * (g * w) by ring]; exact h3)
    have hu : 0 < u := by by_contra hu; nlinarith
    have hw : 0 < w := by by_contra hu; nlinarith
    have hl : 0 < g * u * w := by positivity
    have el : lcm t (g * u) (g * w) = .ok (g * u * w) := by
      have : ((g * u * w).natAbs : Int) = g * u * w := by rw [Int.natCast_natAbs, abs_of_pos hl]
      simp only [lcm, e1, Res.bind_ok, div_mul_left hg (se.of_mul hg).1, NumTy.mul, NumTy.fit_inRange k1.1, this]
    have k2 : Small t (n * w) := Small.of_mul hg (by rw [show g * (n * w) = n * (g * w) by ring]; exact h1)
    have k3 : Small t (m * u) := Small.of_mul hg (by rw [show g * (m * u) = m * (g * u) by ring]; exact h2)
    have d2 : t.div (g * u * w) (g * w) = .ok u := by
      rw [show g * u * w = g * w * u by ring]; exact div_mul_left pb (sd.of_mul hg).1
    obtain ⟨z, hz, sz⟩ := hop g (n * w) (m * u) hg (by ring) (by ring)
    simp only [el, Res.bind_ok, div_mul_left pa (se.of_mul hg).1, d2, NumTy.mul, NumTy.fit_inRange k2.1,
      NumTy.fit_inRange k3.1, hz]
    exact reduce_returns hl.ne' sz k1

theorem add_returns {a b : Frac} (ha : a.Valid t) (hb : b.Valid t) (h : Op.Fits t a b .add) :
    ∃ r, add t a b = .ok r := by
  obtain ⟨h1, h2, h3, h4⟩ := h
  refine addSub_returns ha hb h1 h2 h4 fun k x y hk ex ey => ?_
  rw [ex, ey, ← mul_add] at h3
  exact ⟨_, NumTy.fit_inRange (h3.of_mul hk).1, h3.of_mul hk⟩

theorem sub_returns {a b : Frac} (ha : a.Valid t) (hb : b.Valid t) (h : Op.Fits t a b .sub) :
    ∃ r, sub t a b = .ok r := by
  obtain ⟨h1, h2, h3, h4⟩ := h
  refine addSub_returns ha hb h1 h2 h4 fun k x y hk ex ey => ?_
  rw [ex, ey, ← mul_sub] at h3
  exact ⟨_, NumTy.fit_inRange (h3.of_mul hk).1, h3.of_mul hk⟩

theorem rem_returns {a b : Frac} (ha : a.Valid t) (hb : b.Valid t) (h : Op.Fits t a b .rem) :
    ∃ r, rem t a b = .ok r := by
  obtain ⟨h0, h1, h2, h4⟩ := h
  refine addSub_returns ha hb h1 h2 h4 fun k x y hk ex ey => ?_
  rw [ex] at h1
  rw [ey] at h2
  have sx := h1.of_mul hk
  have sy := h2.of_mul hk
  have z0 := t.prim.inRange_zero
  have hy : y ≠ 0 := by
    rintro rfl
    have := ha.1.pos
    rw [mul_zero, mul_eq_zero] at ey
    omega
  have hq : |x.tdiv y| ≤ |x| := by
    have := Int.natAbs_tdiv_le_natAbs x y
    rw [Int.abs_eq_natAbs, Int.abs_eq_natAbs]; exact_mod_cast this
  have hqr : t.prim.InRange (x.tdiv y) := by
    rcases le_or_gt 0 (x.tdiv y) with hs | hs
    · rw [abs_of_nonneg hs] at hq; exact ⟨z0.1.trans hs, hq.trans sx.2⟩
    · refine ⟨?_, hs.le.trans z0.2⟩
      have hlo : t.prim.lo = -t.prim.hi - 1 := by
        by_cases hx : x < 0
        · exact IntTy.lo_of_neg sx.1 hx
        · by_cases hy' : y < 0
          · exact IntTy.lo_of_neg sy.1 hy'
          · have := Int.tdiv_nonneg (not_lt.1 hx) (not_lt.1 hy'); omega
      have := (abs_le.1 (hq.trans sx.2)).1
      omega
  refine ⟨_, NumTy.rem_eq_ok.2 ⟨hy, rfl, hqr⟩, ?_⟩
  have hm : |x.tmod y| ≤ |x| := by
    rw [Int.abs_eq_natAbs, Int.abs_eq_natAbs, Int.natAbs_tmod]
    exact_mod_cast Nat.mod_le _ _
  refine ⟨?_, hm.trans sx.2⟩
  rcases le_or_gt 0 (x.tmod y) with hs | hs
  · rw [abs_of_nonneg hs] at hm; exact ⟨z0.1.trans hs, hm.trans sx.2⟩
  · have hx : x < 0 := by
      by_contra hx
      have := Int.tmod_nonneg y (not_lt.1 hx)
      omega
    rw [abs_of_neg hs, abs_of_neg hx] at hm
    have := sx.1.1
    exact ⟨by omega, hs.le.trans z0.2⟩

end Frac
end BSQ
