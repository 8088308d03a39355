import Verif.Proofs.Rounding
import Verif.Proofs.Ieee
/-! Rounding is monotone, to integers and to floats. -/
namespace BSQ
open Contrib

theorem Frac.rounds_mono (R : Rounding) {x y : ℚ} {z w : ℤ} (h : x ≤ y) (hz : Rounds R x z) (hw : Rounds R y w) :
    z ≤ w := by
  have key : ∀ a b : ℤ, (a : ℚ) < b + 1 → a ≤ b := by
    intro a b h1
    have h1' : a < b + 1 := by exact_mod_cast h1
    omega
  cases R with
  | truncate =>
    obtain ⟨a1, a2, a3⟩ := hz; obtain ⟨b1, b2, b3⟩ := hw
    apply key
    have sgn : ∀ (u : ℚ) (k : ℤ), |(k : ℚ)| ≤ |u| → 0 ≤ (k : ℚ) * u → (0 ≤ u → 0 ≤ (k : ℚ)) ∧ (u ≤ 0 → (k : ℚ) ≤ 0) := by
      intro u k h1 h2
      constructor
      · intro hu
        rcases hu.eq_or_lt with e | e
        · subst e; rw [abs_zero] at h1
          exact (abs_eq_zero.1 (le_antisymm h1 (abs_nonneg _))).ge
        · by_contra hh; push Not at hh; nlinarith
      · intro hu
        rcases hu.eq_or_lt with e | e
        · subst e; rw [abs_zero] at h1
          exact (abs_eq_zero.1 (le_antisymm h1 (abs_nonneg _))).le
        · by_contra hh; push Not at hh; nlinarith
    obtain ⟨p1, p2⟩ := sgn x z a1 a3
    obtain ⟨q1, q2⟩ := sgn y w b1 b3
    rcases le_total 0 x with hx | hx
    · have hy := hx.trans h
      rw [abs_of_nonneg hx, abs_of_nonneg (p1 hx)] at *
      rw [abs_of_nonneg hy, abs_of_nonneg (q1 hy)] at *
      linarith
    · rcases le_total 0 y with hy | hy
      · linarith [p2 hx, q1 hy]
      · rw [abs_of_nonpos hx, abs_of_nonpos (p2 hx)] at *
        rw [abs_of_nonpos hy, abs_of_nonpos (q2 hy)] at *
        linarith
  | floor => exact key _ _ (by linarith [hz.1, hw.2])
  | ceil => exact key _ _ (by linarith [hz.1, hw.2])
  | round =>
    rcases h.eq_or_lt with e | e
    · subst e; exact (Frac.rounds_unique .round hz hw).le
    · have h1 := abs_le.1 hz.1
      have h2 := abs_le.1 hw.1
      exact key _ _ (by linarith)
  | truncateSigned =>
    obtain ⟨a0, ap, an⟩ := hz; obtain ⟨b0, bp, bn⟩ := hw
    rcases lt_trichotomy x 0 with hx | hx | hx
    · obtain ⟨c1, c2, c3⟩ := an hx
      rcases lt_trichotomy y 0 with hy | hy | hy
      · obtain ⟨d1, d2, d3⟩ := bn hy
        rcases lt_or_ge (-1) y with h1 | h1
        · rw [d2 h1]; exact c1
        · obtain ⟨e1, e2⟩ := d3 h1
          obtain ⟨e3, e4⟩ := c3 (h.trans h1)
          exact key _ _ (by linarith)
      · rw [b0 hy]; omega
      · have := (bp hy).1; omega
    · rw [a0 hx]
      rcases lt_trichotomy y 0 with hy | hy | hy
      · linarith
      · rw [b0 hy]
      · have := (bp hy).1; omega
    · obtain ⟨c1, c2, c3⟩ := ap hx
      obtain ⟨d1, d2, d3⟩ := bp (hx.trans_le h)
      rcases lt_or_ge x 1 with h1 | h1
      · rw [c2 h1]; exact d1
      · exact key _ _ (by linarith [(c3 h1).1, (d3 (h1.trans h)).2])

theorem rne_cases (x : ℚ) : (rne x = ⌊x⌋ ∧ x - ⌊x⌋ ≤ 1 / 2) ∨ (rne x = ⌊x⌋ + 1 ∧ 1 / 2 ≤ x - ⌊x⌋) := by
  unfold rne
  simp only
  split
  · left; exact ⟨rfl, by linarith⟩
  split
  · right; exact ⟨rfl, by linarith⟩
  split
  · left; exact ⟨rfl, by linarith⟩
  · right; exact ⟨rfl, by linarith⟩

theorem rne_mono {x y : ℚ} (h : x ≤ y) : rne x ≤ rne y := by
  rcases h.eq_or_lt with e | e
  · rw [e]
  have hf : ⌊x⌋ ≤ ⌊y⌋ := Int.floor_mono h
  rcases rne_cases x with ⟨e1, h1⟩ | ⟨e1, h1⟩ <;> rcases rne_cases y with ⟨e2, h2⟩ | ⟨e2, h2⟩ <;> rw [e1, e2]
  · exact hf
  · omega
  · rcases hf.eq_or_lt with e | e
    · rw [e] at h1; linarith
    · omega
  · omega

theorem rne_neg (x : ℚ) : rne (-x) = -rne x := by
  by_cases hx : x = ⌊x⌋
  · rw [hx, show -((⌊x⌋ : ℤ) : ℚ) = ((-⌊x⌋ : ℤ) : ℚ) by push_cast; rfl, rne_int, rne_int]
  have h1 : (⌊x⌋ : ℚ) < x := lt_of_le_of_ne (Int.floor_le x) (Ne.symm hx)
  have h2 := Int.lt_floor_add_one x
  have hfl : ⌊-x⌋ = -⌊x⌋ - 1 := by
    rw [Int.floor_eq_iff]; push_cast; constructor <;> linarith
  unfold rne
  simp only [hfl]
  push_cast
  split_ifs <;> first | omega | (exfalso; linarith)

theorem rne_le_int {x : ℚ} {k : ℤ} (h : x ≤ k) : rne x ≤ k := by
  rw [← rne_int k]; exact rne_mono h
theorem le_rne_int {x : ℚ} {k : ℤ} (h : (k : ℚ) ≤ x) : k ≤ rne x := by
  rw [← rne_int k]; exact rne_mono h

namespace Fmt
variable (f : Fmt)

/-- the rounded number before the check for overflow -/
def raw (q : ℚ) : ℚ := rne (q / 2 ^ f.ulpExp q) * 2 ^ f.ulpExp q

theorem raw_neg (q : ℚ) : f.raw (-q) = -f.raw q := by
  unfold raw
  have : f.ulpExp (-q) = f.ulpExp q := by unfold ulpExp; rw [abs_neg]
  rw [this, neg_div, rne_neg]; push_cast; ring

theorem raw_nonneg {q : ℚ} (h : 0 ≤ q) : 0 ≤ f.raw q := by
  unfold raw
  have h2e : (0 : ℚ) < 2 ^ f.ulpExp q := zpow_pos (by norm_num) _
  refine mul_nonneg ?_ h2e.le
  have : 0 ≤ rne (q / 2 ^ f.ulpExp q) := le_rne_int (by push_cast; positivity)
  exact_mod_cast this

theorem ulpExp_mono {x y : ℚ} (h0 : 0 < x) (h : x ≤ y) : f.ulpExp x ≤ f.ulpExp y := by
  unfold ulpExp
  rw [abs_of_pos h0, abs_of_pos (h0.trans_le h)]
  have : Int.log 2 x ≤ Int.log 2 y := Int.log_mono_right h0 h
  omega

theorem raw_mono_pos {x y : ℚ} (hp : 1 ≤ f.p) (h0 : 0 < x) (h : x ≤ y) : f.raw x ≤ f.raw y := by
  have hy0 := h0.trans_le h
  rcases (f.ulpExp_mono h0 h).eq_or_lt with e | e
  · unfold raw
    rw [e]
    have h2e : (0 : ℚ) < 2 ^ f.ulpExp y := zpow_pos (by norm_num) _
    refine mul_le_mul_of_nonneg_right ?_ h2e.le
    exact_mod_cast rne_mono (div_le_div_of_nonneg_right h h2e.le)
  · -- the start of the binade of `y` separates them
    have hu : f.ulpExp y = Int.log 2 y + 1 - f.p := by
      unfold ulpExp at e ⊢
      rw [abs_of_pos hy0, abs_of_pos h0] at *
      omega
    have hlog : Int.log 2 x < Int.log 2 y := by
      by_contra hh
      have : f.ulpExp y ≤ f.ulpExp x := by
        unfold ulpExp; rw [abs_of_pos hy0, abs_of_pos h0]; omega
      omega
    have hux : Int.log 2 x + 1 - f.p ≤ f.ulpExp x := by
      unfold ulpExp; rw [abs_of_pos h0]; exact le_max_left _ _
    have hB : ∀ u : ℤ, u ≤ f.ulpExp y → ∃ k : ℤ, (k : ℚ) * 2 ^ u = 2 ^ (Int.log 2 y) := by
      intro u hu'
      refine ⟨2 ^ (Int.log 2 y - u).toNat, ?_⟩
      push_cast
      rw [← zpow_natCast, Int.toNat_of_nonneg (by omega), ← zpow_add₀ (by norm_num)]
      congr 1; ring
    have hxB : x ≤ 2 ^ (Int.log 2 y) := by
      have h1 := Int.lt_zpow_succ_log_self (b := 2) (by norm_num) x
      refine h1.le.trans ?_
      push_cast
      exact zpow_le_zpow_right₀ (by norm_num) (by omega)
    have hyB : (2 : ℚ) ^ (Int.log 2 y) ≤ y := by
      have := Int.zpow_log_le_self (b := 2) (r := y) (by norm_num) hy0
      exact_mod_cast this
    refine le_trans (b := 2 ^ (Int.log 2 y)) ?_ ?_
    · obtain ⟨k, hk⟩ := hB (f.ulpExp x) e.le
      unfold raw
      have h2e : (0 : ℚ) < 2 ^ f.ulpExp x := zpow_pos (by norm_num) _
      rw [← hk] at hxB ⊢
      refine mul_le_mul_of_nonneg_right ?_ h2e.le
      exact_mod_cast rne_le_int ((div_le_iff₀ h2e).2 hxB)
    · obtain ⟨k, hk⟩ := hB (f.ulpExp y) le_rfl
      unfold raw
      have h2e : (0 : ℚ) < 2 ^ f.ulpExp y := zpow_pos (by norm_num) _
      rw [← hk] at hyB ⊢
      refine mul_le_mul_of_nonneg_right ?_ h2e.le
      exact_mod_cast le_rne_int ((le_div_iff₀ h2e).2 hyB)

theorem raw_zero : f.raw 0 = 0 := by
  have := f.raw_neg 0
  rw [neg_zero] at this
  linarith

theorem raw_mono {x y : ℚ} (hp : 1 ≤ f.p) (h : x ≤ y) : f.raw x ≤ f.raw y := by
  rcases lt_trichotomy x 0 with hx | hx | hx
  · rcases lt_or_ge y 0 with hy | hy
    · have := f.raw_mono_pos hp (x := -y) (y := -x) (by linarith) (by linarith)
      rw [raw_neg, raw_neg] at this; linarith
    · have h1 := f.raw_nonneg (q := -x) (by linarith)
      rw [raw_neg] at h1
      linarith [f.raw_nonneg hy]
  · subst hx; rw [raw_zero]; exact f.raw_nonneg h
  · exact f.raw_mono_pos hp hx h

theorem rnd_eq_raw (q : ℚ) : f.rnd q =
    if 2 ^ f.emax ≤ f.raw q then .pinf else if f.raw q ≤ -(2 ^ f.emax) then .ninf else .fin (f.raw q) := by
  unfold rnd
  split
  · rename_i h
    subst h
    have : (0 : ℚ) < 2 ^ f.emax := by positivity
    rw [raw_zero, if_neg (by linarith), if_neg (by linarith)]
  · rfl
end Fmt
end BSQ
