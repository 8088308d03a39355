import Verif.Model.Ieee
import Verif.Spec.Rational
import Verif.Spec.Numeric
import Verif.Proofs.Unordered
import Mathlib.Tactic.Linarith
import Mathlib.Tactic.Positivity
import Mathlib.Tactic.FieldSimp
import Mathlib.Tactic.Ring
/-! Helper lemmas about floating point. -/
namespace BSQ
open Contrib

theorem rne_int (z : ℤ) : rne (z : ℚ) = z := by
  simp [rne]

/-- ordinary formats: `f32`, `f64`, `f16`, … -/
structure Fmt.Normal (f : Fmt) : Prop where
  p_pos : 1 ≤ f.p
  emin_neg : f.emin ≤ 0
  emax_big : f.p < f.emax

theorem Fmt.normal_f32 : Fmt.f32.Normal := ⟨by decide, by decide, by decide⟩
theorem Fmt.normal_f64 : Fmt.f64.Normal := ⟨by decide, by decide, by decide⟩

/-- the numbers a format represents exactly -/
def Fmt.Rep (f : Fmt) (q : ℚ) : Prop :=
  ∃ (m e : ℤ), q = m * 2 ^ e ∧ |m| ≤ 2 ^ f.p ∧ f.emin ≤ e ∧ |q| < 2 ^ f.emax

/-- representable numbers are not changed by rounding -/
theorem Fmt.rnd_rep {f : Fmt} (hf : f.Normal) {q : ℚ} (hq : f.Rep q) : f.rnd q = .fin q := by
  obtain ⟨m, e, rfl, hm, he, hlt⟩ := hq
  unfold Fmt.rnd
  by_cases h0 : (m : ℚ) * 2 ^ e = 0
  · rw [if_pos h0, h0]
  rw [if_neg h0]
  generalize hq : (m : ℚ) * 2 ^ e = q at *
  have hmq : |(m : ℚ)| ≤ 2 ^ f.p := by exact_mod_cast hm
  have h2e : (0 : ℚ) < 2 ^ e := zpow_pos (by norm_num) _
  have hqe : |q| ≤ 2 ^ ((f.p : ℤ) + e) := by
    rw [← hq, abs_mul, abs_of_pos h2e, zpow_add₀ (by norm_num)]
    exact mul_le_mul_of_nonneg_right (by exact_mod_cast hmq) h2e.le
  have key : ∃ k : ℤ, q / 2 ^ f.ulpExp q = k := by
    rcases le_or_gt (f.ulpExp q) e with he' | he'
    · refine ⟨m * 2 ^ (e - f.ulpExp q).toNat, ?_⟩
      push_cast
      rw [← zpow_natCast (2 : ℚ), Int.toNat_of_nonneg (by omega), zpow_sub₀ (by norm_num), ← mul_div_assoc, hq]
    · -- only possible for `|m| = 2^p`
      have hlog : (f.p : ℤ) + e ≤ Int.log 2 |q| := by
        unfold Fmt.ulpExp at he'
        rcases max_choice (Int.log 2 |q| + 1 - f.p) f.emin with h | h <;> rw [h] at he' <;> omega
      have h1 : (2 : ℚ) ^ ((f.p : ℤ) + e) ≤ |q| := by
        have h2 := Int.zpow_log_le_self (b := 2) (r := |q|) (by norm_num) (abs_pos.2 h0)
        refine le_trans ?_ h2
        exact_mod_cast zpow_le_zpow_right₀ (a := (2 : ℚ)) (by norm_num) hlog
      have h2 : |q| = 2 ^ ((f.p : ℤ) + e) := le_antisymm hqe h1
      have h3 : f.ulpExp q = e + 1 := by
        unfold Fmt.ulpExp
        have : Int.log 2 |q| = f.p + e := by
          rw [h2, show ((2 : ℚ) ^ ((f.p : ℤ) + e)) = ((2 : ℕ) : ℚ) ^ ((f.p : ℤ) + e) by norm_cast]
          exact Int.log_zpow (by norm_num) _
        rw [this, max_eq_left (by omega)]; ring
      have hp := hf.p_pos
      obtain ⟨k, hk⟩ : ∃ k, f.p = k + 1 := ⟨f.p - 1, by omega⟩
      have h4 : |q| = |(2 : ℚ) ^ k * 2 ^ (e + 1)| := by
        rw [abs_of_pos (a := (2 : ℚ) ^ k * 2 ^ (e + 1)) (mul_pos (by positivity) (zpow_pos (by norm_num) _)), h2, hk, ← zpow_natCast (2 : ℚ) k, ← zpow_add₀ (by norm_num)]
        congr 1; push_cast; ring
      rw [h3]
      rcases abs_eq_abs.1 h4 with h5 | h5
      · exact ⟨2 ^ k, by rw [h5]; push_cast; field_simp⟩
      · exact ⟨-2 ^ k, by rw [h5]; push_cast; field_simp⟩
  obtain ⟨k, hk⟩ := key
  have hr : ((rne (q / 2 ^ f.ulpExp q) : ℤ) : ℚ) * 2 ^ f.ulpExp q = q := by
    rw [hk, rne_int, ← hk]
    field_simp
  simp only [hr]
  rw [abs_lt] at hlt
  rw [if_neg (not_le.2 hlt.2), if_neg (not_le.2 hlt.1)]

/-- integers of at most `p` bits are floats -/
theorem Fmt.rnd_int {f : Fmt} (hf : f.Normal) {z : ℤ} (hz : |z| ≤ 2 ^ f.p) : f.rnd z = .fin z := by
  have hzq : |(z : ℚ)| ≤ 2 ^ f.p := by exact_mod_cast hz
  exact f.rnd_rep hf ⟨z, 0, by simp, hz, hf.emin_neg,
    lt_of_le_of_lt hzq (pow_lt_pow_right₀ (by norm_num) hf.emax_big)⟩

theorem rne_near (x : ℚ) (k : ℤ) : |x - rne x| ≤ |x - k| := by
  have h1 := Int.floor_le x
  have h2 := Int.lt_floor_add_one x
  have hk : |x - k| ≥ x - ⌊x⌋ ∨ |x - k| ≥ ⌊x⌋ + 1 - x := by
    rcases le_or_gt k ⌊x⌋ with h | h
    · left
      have : (k : ℚ) ≤ ⌊x⌋ := by exact_mod_cast h
      exact le_trans (by linarith) (le_abs_self _)
    · right
      have : ((⌊x⌋ + 1 : ℤ) : ℚ) ≤ k := by exact_mod_cast h
      push_cast at this
      exact le_trans (by linarith) (neg_le_abs _)
  have hz : |x - ⌊x⌋| = x - ⌊x⌋ := abs_of_nonneg (by linarith)
  have hz' : |x - ((⌊x⌋ + 1 : ℤ) : ℚ)| = ⌊x⌋ + 1 - x := by
    rw [abs_of_nonpos (by push_cast; linarith)]; push_cast; ring
  unfold rne
  simp only
  split
  · rw [hz]; rcases hk with h | h <;> linarith
  split
  · rw [hz']; rcases hk with h | h <;> linarith
  split
  · rw [hz]; rcases hk with h | h <;> linarith
  · rw [hz']; rcases hk with h | h <;> linarith

theorem rne_le {x : ℚ} {k : ℤ} (h : |x| ≤ k) : |rne x| ≤ k := by
  have h1 := Int.floor_le x
  have h2 := Int.lt_floor_add_one x
  rw [abs_le] at h
  have hlo : -k ≤ ⌊x⌋ := Int.le_floor.2 (by push_cast; linarith)
  have hcase : rne x = ⌊x⌋ ∨ (rne x = ⌊x⌋ + 1 ∧ (⌊x⌋ : ℚ) < x) := by
    unfold rne; simp only
    split
    · exact .inl rfl
    split
    · exact .inr ⟨rfl, by linarith⟩
    split
    · exact .inl rfl
    · exact .inr ⟨rfl, by linarith⟩
  rcases hcase with h3 | ⟨h3, h4⟩
  · rw [h3, abs_le]
    refine ⟨hlo, ?_⟩
    have : (⌊x⌋ : ℚ) ≤ k := by linarith
    exact_mod_cast this
  · rw [h3, abs_le]
    refine ⟨by omega, ?_⟩
    have : (⌊x⌋ : ℚ) < k := by linarith
    have : ⌊x⌋ < k := by exact_mod_cast this
    omega

theorem Fmt.abs_le_ulp (f : Fmt) (q : ℚ) : |q / 2 ^ f.ulpExp q| ≤ ((2 ^ f.p : ℤ) : ℚ) := by
  have h2e : (0 : ℚ) < 2 ^ f.ulpExp q := zpow_pos (by norm_num) _
  rw [abs_div, abs_of_pos h2e, div_le_iff₀ h2e]
  have h1 := Int.lt_zpow_succ_log_self (b := 2) (by norm_num) |q|
  refine h1.le.trans ?_
  push_cast
  rw [← zpow_natCast (2 : ℚ) f.p, ← zpow_add₀ (by norm_num)]
  refine zpow_le_zpow_right₀ (by norm_num) ?_
  have := le_max_left (Int.log 2 |q| + 1 - f.p) f.emin
  unfold Fmt.ulpExp
  omega

/-- every rounded result is representable -/
theorem Fmt.rep_of_rnd {f : Fmt} (hf : f.Normal) {q r : ℚ} (h : f.rnd q = .fin r) : f.Rep r := by
  unfold Fmt.rnd at h
  split at h
  · cases h
    exact ⟨0, 0, by simp, by simp, hf.emin_neg, by simp⟩
  · rename_i h0
    simp only at h
    split at h
    · cases h
    split at h
    · cases h
    rename_i ha hb
    cases h
    refine ⟨_, _, rfl, rne_le (f.abs_le_ulp _), le_max_right _ _, ?_⟩
    rw [abs_lt]
    exact ⟨not_le.1 hb, not_le.1 ha⟩

/-- sanity of the format: a finite rounded result is a nearest representable number -/
theorem Fmt.rnd_nearest {f : Fmt} (hf : f.Normal) {q r x : ℚ} (h : f.rnd q = .fin r) (hx : f.Rep x) :
    |q - r| ≤ |q - x| := by
  unfold Fmt.rnd at h
  split at h
  · rename_i h0; cases h; rw [h0]; simp
  rename_i h0
  simp only at h
  split at h
  · cases h
  split at h
  · cases h
  cases h
  have h2e : (0 : ℚ) < 2 ^ f.ulpExp q := zpow_pos (by norm_num) _
  have hmul : ∀ k : ℤ, |q - rne (q / 2 ^ f.ulpExp q) * 2 ^ f.ulpExp q| ≤ |q - k * 2 ^ f.ulpExp q| := by
    intro k
    have h1 := rne_near (q / 2 ^ f.ulpExp q) k
    have conv : ∀ y : ℚ, |q - y * 2 ^ f.ulpExp q| = |q / 2 ^ f.ulpExp q - y| * 2 ^ f.ulpExp q := by
      intro y
      conv_rhs => rw [← abs_of_pos h2e, ← abs_mul, abs_of_pos h2e]
      congr 1; field_simp
    rw [conv, conv]
    exact mul_le_mul_of_nonneg_right h1 h2e.le
  obtain ⟨m, e, rfl, hm, he, -⟩ := hx
  rcases le_or_gt (f.ulpExp q) e with he' | he'
  · have := hmul (m * 2 ^ (e - f.ulpExp q).toNat)
    have h3 : ((m * 2 ^ (e - f.ulpExp q).toNat : ℤ) : ℚ) * 2 ^ f.ulpExp q = m * 2 ^ e := by
      push_cast
      rw [← zpow_natCast, Int.toNat_of_nonneg (by omega), mul_assoc, ← zpow_add₀ (by norm_num)]
      congr 2; ring
    rw [h3] at this; exact this
  · -- `x` lies below the binade of `q`
    have hlog : f.ulpExp q = Int.log 2 |q| + 1 - f.p := by
      unfold Fmt.ulpExp at he' ⊢
      rcases max_choice (Int.log 2 |q| + 1 - f.p) f.emin with h | h
      · exact h
      · rw [h] at he'; omega
    have hp := hf.p_pos
    have hB : (2 : ℚ) ^ (f.p - 1 : ℕ) * 2 ^ f.ulpExp q ≤ |q| := by
      have h2 := Int.zpow_log_le_self (b := 2) (r := |q|) (by norm_num) (abs_pos.2 h0)
      refine le_trans (le_of_eq ?_) h2
      push_cast
      rw [hlog, ← zpow_natCast, ← zpow_add₀ (by norm_num)]
      congr 1; omega
    have hxB : |(m : ℚ) * 2 ^ e| ≤ (2 : ℚ) ^ (f.p - 1 : ℕ) * 2 ^ f.ulpExp q := by
      have hmq : |(m : ℚ)| ≤ 2 ^ f.p := by exact_mod_cast hm
      have h2e' : (0 : ℚ) < 2 ^ e := zpow_pos (by norm_num) _
      rw [abs_mul, abs_of_pos h2e']
      refine (mul_le_mul_of_nonneg_right hmq h2e'.le).trans ?_
      rw [← zpow_natCast (2 : ℚ) f.p, ← zpow_natCast (2 : ℚ) (f.p - 1), ← zpow_add₀ (by norm_num),
        ← zpow_add₀ (by norm_num)]
      exact zpow_le_zpow_right₀ (by norm_num) (by omega)
    have b1 := hmul (2 ^ (f.p - 1))
    have b2 := hmul (-2 ^ (f.p - 1))
    push_cast at b1 b2
    rw [neg_mul] at b2
    generalize (2 : ℚ) ^ (f.p - 1 : ℕ) * 2 ^ f.ulpExp q = B at *
    rw [abs_le] at hxB
    rcases le_total 0 q with hq | hq
    · rw [abs_of_nonneg hq] at hB
      rw [abs_of_nonneg (a := q - B) (by linarith)] at b1
      exact b1.trans (le_trans (by linarith) (le_abs_self _))
    · rw [abs_of_nonpos hq] at hB
      rw [abs_of_nonpos (a := q - -B) (by linarith)] at b2
      exact b2.trans (le_trans (by linarith) (neg_le_abs _))

namespace Fl
theorem add_comm (f : Fmt) (a b : Fl) : add f a b = add f b a := by
  cases a <;> cases b <;> simp [add, _root_.add_comm]
theorem mul_comm (f : Fmt) (a b : Fl) : mul f a b = mul f b a := by
  cases a <;> cases b <;> simp [mul, infMul, _root_.mul_comm]
theorem min_comm (a b : Fl) : Fl.min a b = Fl.min b a := by
  cases a <;> cases b <;> simp [Fl.min]
  rename_i x y
  rcases lt_trichotomy x y with h | h | h
  · rw [if_neg (not_lt.2 h.le), if_pos h]
  · simp [h]
  · rw [if_neg (not_lt.2 h.le), if_pos h]
theorem max_comm (a b : Fl) : Fl.max a b = Fl.max b a := by
  cases a <;> cases b <;> simp [Fl.max]
  rename_i x y
  rcases lt_trichotomy x y with h | h | h
  · rw [if_neg (not_lt.2 h.le), if_pos h]
  · simp [h]
  · rw [if_neg (not_lt.2 h.le), if_pos h]

theorem add_int {f : Fmt} (hf : f.Normal) {a b : ℤ} (h : |a + b| ≤ 2 ^ f.p) :
    add f (.fin a) (.fin b) = .fin ((a + b : ℤ) : ℚ) := by
  rw [← f.rnd_int hf h]; simp [add]
theorem mul_int {f : Fmt} (hf : f.Normal) {a b : ℤ} (h : |a * b| ≤ 2 ^ f.p) :
    mul f (.fin a) (.fin b) = .fin ((a * b : ℤ) : ℚ) := by
  rw [← f.rnd_int hf h]; simp [mul]

theorem truncQ_rounds (q : ℚ) : Rounds .truncate q (truncQ q) := by
  simp only [truncQ, Rounds]
  split
  · rename_i h
    have h1 := Int.floor_le q
    have h2 := Int.lt_floor_add_one q
    have h3 : (0 : ℚ) ≤ ⌊q⌋ := by exact_mod_cast Int.floor_nonneg.2 h
    rw [abs_of_nonneg h, abs_of_nonneg h3]
    exact ⟨h1, h2, mul_nonneg h3 h⟩
  · rename_i h
    have h1 := Int.le_ceil q
    have h2 := Int.ceil_lt_add_one q
    have h3 : (⌈q⌉ : ℚ) ≤ 0 := by exact_mod_cast Int.ceil_le.2 (by push_cast; linarith)
    rw [abs_of_nonpos (a := q) (by linarith), abs_of_nonpos h3]
    exact ⟨by linarith, by linarith, mul_nonneg_of_nonpos_of_nonpos h3 (by linarith)⟩

theorem roundQ_rounds (q : ℚ) : Rounds .round q (roundQ q) := by
  simp only [roundQ, Rounds]
  split
  · rename_i h
    have h1 := Int.floor_le (q + 1 / 2)
    have h2 := Int.lt_floor_add_one (q + 1 / 2)
    have h3 : (0 : ℚ) ≤ ⌊q + 1 / 2⌋ := by exact_mod_cast Int.floor_nonneg.2 (by linarith)
    rw [abs_of_nonneg h, abs_of_nonneg h3]
    refine ⟨abs_le.2 ⟨by linarith, by linarith⟩, fun e => ?_⟩
    rcases (abs_eq (by norm_num)).1 e with e | e <;> linarith
  · rename_i h
    have h1 := Int.le_ceil (q - 1 / 2)
    have h2 := Int.ceil_lt_add_one (q - 1 / 2)
    have h3 : (⌈q - 1 / 2⌉ : ℚ) ≤ 0 := by exact_mod_cast Int.ceil_le.2 (by push_cast; linarith)
    rw [abs_of_nonpos (a := q) (by linarith), abs_of_nonpos h3]
    refine ⟨abs_le.2 ⟨by linarith, by linarith⟩, fun e => ?_⟩
    rcases (abs_eq (by norm_num)).1 e with e | e <;> linarith

theorem truncQ_int (z : ℤ) : truncQ z = z := by unfold truncQ; split <;> simp
theorem roundQ_int (z : ℤ) : roundQ z = z := by
  unfold roundQ
  split
  · have : ⌊(z : ℚ) + 1 / 2⌋ = z := by rw [Int.floor_eq_iff]; constructor <;> linarith
    exact this
  · have : ⌈(z : ℚ) - 1 / 2⌉ = z := by rw [Int.ceil_eq_iff]; constructor <;> linarith
    exact this

/-- rounding a finite float yields the documented integer -/
theorem apply_fin {f : Fmt} (hf : f.Normal) (R : Rounding) (q : ℚ) :
    ∃ z : ℤ, R.apply (ops f) (.fin q) = .ok (.fin z) ∧ Rounds R q z := by
  cases R with
  | truncate => exact ⟨_, rfl, truncQ_rounds q⟩
  | floor => exact ⟨_, rfl, Int.floor_le q, Int.lt_floor_add_one q⟩
  | ceil =>
    refine ⟨_, rfl, ?_, Int.le_ceil q⟩
    have := Int.ceil_lt_add_one q
    linarith
  | round => exact ⟨_, rfl, roundQ_rounds q⟩
  | truncateSigned =>
    have hm1 : add f (.fin 0) (neg (.fin 1)) = .fin (-1) := by
      have h2 : (1 : ℤ) ≤ 2 ^ f.p := one_le_pow₀ (by norm_num)
      have h1 := add_int hf (a := 0) (b := -1) (by simpa using h2)
      simpa [neg] using h1
    rcases lt_trichotomy 0 q with h | h | h
    · refine ⟨Max.max (truncQ q) 1, ?_, fun h0 => absurd h0 h.ne', fun _ => ?_, fun h0 => absurd h0 h.asymm⟩
      · simp only [Rounding.apply, lt, decide_eq_true_eq, h, if_true, mapInt, Res.bind_ok, Fl.max]
        congr 2
        rcases lt_or_ge 1 (truncQ q) with h1 | h1
        · rw [if_pos (by exact_mod_cast h1), max_eq_left h1.le]
        · rw [if_neg (not_lt.2 (by exact_mod_cast h1)), max_eq_right h1]; simp
      · have ht : truncQ q = ⌊q⌋ := by simp [truncQ, h.le]
        rw [ht]
        refine ⟨le_max_right _ _, fun h1 => ?_, fun h1 => ?_⟩
        · have : ⌊q⌋ ≤ 0 := by
            have := Int.floor_lt.2 (show q < ((1 : ℤ) : ℚ) by simpa using h1); omega
          exact max_eq_right (by omega)
        · have : 1 ≤ ⌊q⌋ := Int.le_floor.2 (by simpa using h1)
          rw [max_eq_left this]
          exact ⟨Int.floor_le q, Int.lt_floor_add_one q⟩
    · subst h
      exact ⟨0, by simp [Rounding.apply, lt], by simp [Rounds]⟩
    · refine ⟨Min.min (truncQ q) (-1), ?_, fun h0 => absurd h0 h.ne, fun h0 => absurd h0 h.asymm, fun _ => ?_⟩
      · simp only [Rounding.apply, lt, decide_eq_true_eq, h.asymm, h, if_true, if_false, mapInt, Res.bind_ok,
          hm1, Fl.min]
        congr 2
        rcases lt_or_ge (-1) (truncQ q) with h1 | h1
        · rw [if_pos (by exact_mod_cast h1), min_eq_right h1.le]; simp
        · rw [if_neg (not_lt.2 (by exact_mod_cast h1)), min_eq_left h1]
      · have ht : truncQ q = ⌈q⌉ := by simp [truncQ, not_le.2 h]
        rw [ht]
        refine ⟨min_le_right _ _, fun h1 => ?_, fun h1 => ?_⟩
        · have : 0 ≤ ⌈q⌉ := by
            have := Int.lt_ceil.2 (show ((-1 : ℤ) : ℚ) < q by simpa using h1); omega
          exact min_eq_right (by omega)
        · have : ⌈q⌉ ≤ -1 := Int.ceil_le.2 (by simpa using h1)
          rw [min_eq_left this]
          have h2 := Int.le_ceil q
          have h3 := Int.ceil_lt_add_one q
          exact ⟨h2, by linarith⟩

end Fl
end BSQ
