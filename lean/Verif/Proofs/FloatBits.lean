import Verif.Spec.FloatBits
import Verif.Proofs.Monotone
import Verif.Proofs.RoundOff
/-!
# Bit patterns and the numbers they denote
-/
namespace BSQ

/-- formats with at least two bits of significand and enough exponents; `f32` and `f64` are such -/
structure UsualBits (w p : ℕ) : Prop where
  p2 : 2 ≤ p
  big : p < 2 ^ (w - 1)
  w1 : 1 ≤ w

theorem usual_f32 : UsualBits 8 24 := ⟨by decide, by decide, by decide⟩
theorem usual_f64 : UsualBits 11 53 := ⟨by decide, by decide, by decide⟩

variable {w p : ℕ}

theorem UsualBits.normal (h : UsualBits w p) : (Fmt.ofBits w p).Normal := by
  have h1 := h.p2
  have h2 := h.big
  refine ⟨by simp only [Fmt.ofBits]; omega, ?_, h2⟩
  simp only [Fmt.ofBits]
  have : ((2 ^ (w - 1) : ℕ) : ℤ) = 2 ^ (w - 1) := by push_cast; rfl
  omega

theorem UsualBits.twice (h : UsualBits w p) : 2 ^ w = 2 * 2 ^ (w - 1) := by
  have := h.w1
  conv_lhs => rw [show w = w - 1 + 1 by omega, pow_succ]
  ring

theorem UsualBits.top (h : UsualBits w p) : (((2 ^ w - 2 : ℕ) : ℤ)) - 1 + (Fmt.ofBits w p).emin + p = 2 ^ (w - 1) := by
  have h1 := h.twice
  have h2 := h.big
  have : ((2 ^ (w - 1) : ℕ) : ℤ) = 2 ^ (w - 1) := by push_cast; rfl
  simp only [Fmt.ofBits]
  omega

theorem two_pred (hp : 2 ≤ p) : 2 ^ p = 2 * 2 ^ (p - 1) := by
  conv_lhs => rw [show p = p - 1 + 1 by omega, pow_succ]
  ring

theorem even_pred (hp : 2 ≤ p) : 2 ^ (p - 1) % 2 = 0 := by
  rw [show p - 1 = p - 2 + 1 by omega, pow_succ]; omega

namespace FBits

theorem trichotomy (b : FBits w p) : b.IsNaN ∨ b.IsInf ∨ b.IsFin := by
  unfold IsNaN IsInf IsFin; tauto
theorem IsNaN.not_inf {b : FBits w p} (h : b.IsNaN) : ¬ b.IsInf := fun h' => h.2 h'.2
theorem IsNaN.not_fin {b : FBits w p} (h : b.IsNaN) : ¬ b.IsFin := fun h' => h' h.1
theorem IsInf.not_fin {b : FBits w p} (h : b.IsInf) : ¬ b.IsFin := fun h' => h' h.1

theorem denotes_fin {b : FBits w p} (h : b.IsFin) : b.denotes = .fin b.val := if_neg h
theorem denotes_nan {b : FBits w p} (h : b.IsNaN) : b.denotes = .nan := by
  unfold denotes; rw [if_pos h.1, if_neg h.2]
theorem denotes_inf {b : FBits w p} (h : b.IsInf) : b.denotes = if b.neg then .ninf else .pinf := by
  unfold denotes; rw [if_pos h.1, if_pos h.2]

theorem isFin_of {b : FBits w p} {q : ℚ} (h : b.denotes = .fin q) : b.IsFin ∧ b.val = q := by
  unfold denotes at h
  split at h
  · split at h
    · split at h <;> cases h
    · cases h
  · exact ⟨‹_›, Fl.fin.inj h⟩
theorem isNaN_of {b : FBits w p} (h : b.denotes = .nan) : b.IsNaN := by
  unfold denotes at h
  split at h
  · split at h
    · split at h <;> cases h
    · exact ⟨‹_›, ‹_›⟩
  · cases h
theorem isInf_of {b : FBits w p} {s : Bool} (h : b.denotes = if s then .ninf else .pinf) : b.IsInf ∧ b.neg = s := by
  unfold denotes at h
  split at h
  · split at h
    · refine ⟨⟨‹_›, ‹_›⟩, ?_⟩
      cases hn : b.neg <;> cases s <;> simp [hn] at h ⊢
    · cases s <;> cases h
  · cases s <;> cases h

/-- the significand as an integer -/
def sig (b : FBits w p) : ℕ := if b.exp.val = 0 then b.man.val else 2 ^ (p - 1) + b.man.val
/-- the exponent of its last bit -/
def scale (b : FBits w p) : ℤ :=
  if b.exp.val = 0 then (Fmt.ofBits w p).emin else (b.exp.val : ℤ) - 1 + (Fmt.ofBits w p).emin

theorem mag_eq (b : FBits w p) : b.mag = b.sig * 2 ^ b.scale := by
  unfold mag sig scale
  split
  · rfl
  · push_cast; rfl
theorem mag_nonneg (b : FBits w p) : 0 ≤ b.mag := by
  rw [mag_eq]; exact mul_nonneg (Nat.cast_nonneg _) (zpow_pos (by norm_num) _).le
theorem abs_val (b : FBits w p) : |b.val| = b.mag := by
  unfold val; split
  · rw [abs_neg, abs_of_nonneg b.mag_nonneg]
  · exact abs_of_nonneg b.mag_nonneg
theorem sig_lt (hp : 2 ≤ p) (b : FBits w p) : b.sig < 2 ^ p := by
  have := b.man.isLt
  have := two_pred hp
  unfold sig; split <;> omega
theorem emin_le_scale (b : FBits w p) : (Fmt.ofBits w p).emin ≤ b.scale := by
  unfold scale; split <;> omega
theorem scale_small {b : FBits w p} (h : b.sig < 2 ^ (p - 1)) : b.scale = (Fmt.ofBits w p).emin := by
  unfold sig at h; unfold scale
  split at h
  · rw [if_pos ‹_›]
  · omega
theorem sig_parity (hp : 2 ≤ p) (b : FBits w p) : b.sig % 2 = b.man.val % 2 := by
  have := even_pred hp
  unfold sig; split <;> omega

/-- finite patterns are below the limit of the exponents -/
theorem mag_lt (h : UsualBits w p) {b : FBits w p} (hb : b.IsFin) : b.mag < 2 ^ (2 ^ (w - 1)) := by
  have hs := b.sig_lt h.p2
  have hsc : b.scale + p ≤ 2 ^ (w - 1) := by
    have h1 := h.top
    have h2 := b.exp.isLt
    have h3 : b.exp.val ≠ 2 ^ w - 1 := hb
    have h4 := h.twice
    have h5 := h.big
    have h6 := h.normal.emin_neg
    have h7 : ((2 ^ (w - 1) : ℕ) : ℤ) = 2 ^ (w - 1) := by push_cast; rfl
    unfold scale
    split <;> omega
  rw [mag_eq]
  calc (b.sig : ℚ) * 2 ^ b.scale < 2 ^ p * 2 ^ b.scale :=
        mul_lt_mul_of_pos_right (by exact_mod_cast hs) (zpow_pos (by norm_num) _)
    _ = 2 ^ (b.scale + p) := by rw [zpow_add₀ (by norm_num), zpow_natCast]; ring
    _ ≤ 2 ^ ((2 ^ (w - 1) : ℕ) : ℤ) := zpow_le_zpow_right₀ (by norm_num) (by push_cast; exact hsc)
    _ = _ := by rw [zpow_natCast]

theorem rep_val (h : UsualBits w p) {b : FBits w p} (hb : b.IsFin) : (Fmt.ofBits w p).Rep b.val := by
  have hs := b.sig_lt h.p2
  refine ⟨if b.neg then -(b.sig : ℤ) else b.sig, b.scale, ?_, ?_, b.emin_le_scale, ?_⟩
  · unfold val; rw [mag_eq]
    split <;> push_cast <;> ring
  · have : ((b.sig : ℕ) : ℤ) ≤ 2 ^ p := by exact_mod_cast hs.le
    split
    · rw [abs_neg, abs_of_nonneg (by positivity)]; exact this
    · rw [abs_of_nonneg (by positivity)]; exact this
  · rw [abs_val]; exact mag_lt h hb

/-- a pattern for a sign, a significand and an exponent that are as they should be -/
theorem of_sig (h : UsualBits w p) (s : Bool) (k : ℕ) (e : ℤ) (hk : k < 2 ^ p) (he : (Fmt.ofBits w p).emin ≤ e)
    (hsub : k < 2 ^ (p - 1) → e = (Fmt.ofBits w p).emin) (hlt : (k : ℚ) * 2 ^ e < 2 ^ (2 ^ (w - 1))) :
    ∃ b : FBits w p, b.IsFin ∧ b.neg = s ∧ b.sig = k ∧ b.scale = e := by
  have hp := h.p2
  have h2 := two_pred hp
  have hw := h.twice
  have hbig := h.big
  by_cases hks : k < 2 ^ (p - 1)
  · refine ⟨⟨s, ⟨0, by positivity⟩, ⟨k, hks⟩⟩, ?_, rfl, ?_, ?_⟩
    · show (0 : ℕ) ≠ 2 ^ w - 1
      omega
    · simp [sig]
    · simp [scale, hsub hks]
  · have htop := h.top
    have hle : e - (Fmt.ofBits w p).emin + 1 ≤ 2 ^ w - 2 := by
      by_contra hc
      have hpos : (0 : ℚ) < 2 ^ e := zpow_pos (by norm_num) _
      have h3 : (2 : ℚ) ^ (p - 1) * 2 ^ e ≤ k * 2 ^ e :=
        mul_le_mul_of_nonneg_right (by exact_mod_cast not_lt.1 hks) hpos.le
      have h4 : (2 : ℚ) ^ ((2 ^ (w - 1) : ℕ) : ℤ) ≤ 2 ^ (p - 1) * 2 ^ e := by
        rw [← zpow_natCast (2 : ℚ) (p - 1), ← zpow_add₀ (by norm_num)]
        refine zpow_le_zpow_right₀ (by norm_num) ?_
        have : ((2 ^ w : ℕ) : ℤ) = 2 ^ w := by push_cast; rfl
        have : ((2 ^ (w - 1) : ℕ) : ℤ) = 2 ^ (w - 1) := by push_cast; rfl
        omega
      rw [zpow_natCast] at h4
      linarith
    have hcast : ((2 ^ w : ℕ) : ℤ) = 2 ^ w := by push_cast; rfl
    refine ⟨⟨s, ⟨(e - (Fmt.ofBits w p).emin + 1).toNat, by omega⟩, ⟨k - 2 ^ (p - 1), by omega⟩⟩, ?_, rfl, ?_, ?_⟩
    · show (e - (Fmt.ofBits w p).emin + 1).toNat ≠ 2 ^ w - 1
      omega
    · unfold sig
      rw [if_neg (by show (e - (Fmt.ofBits w p).emin + 1).toNat ≠ 0; omega)]
      show 2 ^ (p - 1) + (k - 2 ^ (p - 1)) = k
      omega
    · unfold scale
      rw [if_neg (by show (e - (Fmt.ofBits w p).emin + 1).toNat ≠ 0; omega)]
      show (((e - (Fmt.ofBits w p).emin + 1).toNat : ℕ) : ℤ) - 1 + _ = e
      omega

/-- significand and exponent are determined by the number -/
theorem sig_unique {k k' : ℕ} {e e' m : ℤ} (hp : 2 ≤ p) (hk : k < 2 ^ p) (hk' : k' < 2 ^ p) (hm : m ≤ e) (hm' : m ≤ e')
    (hs : k < 2 ^ (p - 1) → e = m) (hs' : k' < 2 ^ (p - 1) → e' = m) (h : (k : ℚ) * 2 ^ e = k' * 2 ^ e') :
    k = k' ∧ e = e' := by
  have key : ∀ {k k' : ℕ} {e e' : ℤ}, k < 2 ^ p → m ≤ e → (k' < 2 ^ (p - 1) → e' = m) →
      (k : ℚ) * 2 ^ e = k' * 2 ^ e' → ¬ e < e' := by
    intro k k' e e' hk hm hs' h hlt
    have h2 := two_pred hp
    have hk2 : 2 ^ (p - 1) ≤ k' := by
      by_contra hc
      have := hs' (not_le.1 hc)
      omega
    have hpos : (0 : ℚ) < 2 ^ e := zpow_pos (by norm_num) _
    have h3 : (2 : ℚ) ^ e' = 2 ^ (e' - e).toNat * 2 ^ e := by
      rw [← zpow_natCast, ← zpow_add₀ (by norm_num)]; congr 1; omega
    rw [h3, ← mul_assoc] at h
    have h4 := mul_right_cancel₀ hpos.ne' h
    have h5 : k = k' * 2 ^ (e' - e).toNat := by exact_mod_cast h4
    have h6 : 2 ≤ 2 ^ (e' - e).toNat := by
      calc 2 = 2 ^ 1 := rfl
        _ ≤ _ := Nat.pow_le_pow_right (by norm_num) (by omega)
    have h7 : 2 ^ (p - 1) * 2 ≤ k' * 2 ^ (e' - e).toNat := Nat.mul_le_mul hk2 h6
    omega
  have h1 := key hk hm hs' h
  have h2 := key hk' hm' hs h.symm
  have he : e = e' := by omega
  subst he
  refine ⟨?_, rfl⟩
  have hpos : (0 : ℚ) < 2 ^ e := zpow_pos (by norm_num) _
  exact_mod_cast mul_right_cancel₀ hpos.ne' h

/-- two significands with an exponent each, in the form they have in patterns -/
theorem normal_form (hp : 2 ≤ p) {m : ℤ} (k : ℕ) (e : ℤ) (hk : k ≤ 2 ^ p) (hm : m ≤ e) :
    ∃ (k' : ℕ) (e' : ℤ), k' < 2 ^ p ∧ m ≤ e' ∧ (k' < 2 ^ (p - 1) → e' = m) ∧ (k : ℚ) * 2 ^ e = k' * 2 ^ e' := by
  have h2 := two_pred hp
  rcases hk.eq_or_lt with rfl | hk
  · refine ⟨2 ^ (p - 1), e + 1, by have := Nat.two_pow_pos (p - 1); omega, by omega,
      fun h => absurd h (lt_irrefl _), ?_⟩
    rw [h2, zpow_add₀ (by norm_num)]; push_cast; ring
  · generalize hn : (e - m).toNat = n
    induction n generalizing k e with
    | zero => exact ⟨k, e, hk, hm, fun _ => by omega, rfl⟩
    | succ n ih =>
      by_cases hks : k < 2 ^ (p - 1)
      · obtain ⟨k', e', h3, h4, h5, h6⟩ := ih (2 * k) (e - 1) (by omega) (by omega) (by omega) (by omega)
        refine ⟨k', e', h3, h4, h5, ?_⟩
        rw [← h6, zpow_sub₀ (by norm_num)]; push_cast; ring
      · exact ⟨k, e, hk, hm, fun h => absurd h hks, rfl⟩

/-- every number of the format has a pattern, 0 with either sign -/
theorem of_rep (h : UsualBits w p) {q : ℚ} (hq : (Fmt.ofBits w p).Rep q) (s : Bool) :
    ∃ b : FBits w p, b.IsFin ∧ b.val = q ∧ (q = 0 → b.neg = s) := by
  obtain ⟨m, e, rfl, hm, he, hlt⟩ := hq
  have hmag : |(m : ℚ) * 2 ^ e| = (m.natAbs : ℚ) * 2 ^ e := by
    rw [abs_mul, abs_of_pos (zpow_pos (by norm_num : (0 : ℚ) < 2) e)]
    congr 1
    rw [← Int.cast_natCast, Int.natCast_natAbs, Int.cast_abs]
  have hle : m.natAbs ≤ 2 ^ p := by
    have : ((m.natAbs : ℕ) : ℤ) ≤ 2 ^ p := by rw [Int.natCast_natAbs]; exact hm
    exact_mod_cast this
  obtain ⟨k, e', h1, h2, h3, h4⟩ := normal_form h.p2 m.natAbs e hle he
  obtain ⟨b, b1, b2, b3, b4⟩ := of_sig h (if m = 0 then s else decide (m < 0)) k e' h1 h2 h3
    (by rw [← h4, ← hmag]; exact hlt)
  have hb : b.mag = |(m : ℚ) * 2 ^ e| := by rw [mag_eq, b3, b4, ← h4, hmag]
  have hpos : (0 : ℚ) < 2 ^ e := zpow_pos (by norm_num) _
  refine ⟨b, b1, ?_, fun h0 => ?_⟩
  · unfold val
    rw [hb, b2]
    by_cases h0 : m = 0
    · subst h0; simp
    · rw [if_neg h0]
      by_cases hneg : m < 0
      · have : (m : ℚ) * 2 ^ e ≤ 0 := mul_nonpos_of_nonpos_of_nonneg (by exact_mod_cast hneg.le) hpos.le
        simp [hneg, abs_of_nonpos this]
      · have : 0 ≤ (m : ℚ) * 2 ^ e := mul_nonneg (by exact_mod_cast not_lt.1 hneg) hpos.le
        simp [hneg, abs_of_nonneg this]
  · have : m = 0 := by
      rcases mul_eq_zero.1 h0 with h | h
      · exact_mod_cast h
      · exact absurd h hpos.ne'
    rw [b2, if_pos this]

end FBits
namespace Fmt
variable {f : Fmt}

/-- results become infinite from half way beyond the largest number of the format -/
theorem raw_top (hf : f.Normal) {q : ℚ} (hq : 0 < q) :
    2 ^ f.emax ≤ f.raw q ↔ (2 : ℚ) ^ f.emax - 2 ^ f.emax / 2 ^ (f.p + 1) ≤ q := by
  have hp := hf.p_pos
  have hbig := hf.emax_big
  have hmin := hf.emin_neg
  have hB : (0 : ℚ) < 2 ^ f.emax := by positivity
  -- numbers of the highest binade
  have top : ∀ q : ℚ, (2 : ℚ) ^ (f.emax - 1) ≤ q → q < 2 ^ f.emax → f.ulpExp q = f.emax - f.p := by
    intro q h1 h2
    have hq : 0 < q := lt_of_lt_of_le (by positivity) h1
    have hlog : Int.log 2 q = f.emax - 1 := by
      have a1 : ((f.emax - 1 : ℕ) : ℤ) ≤ Int.log 2 q := by
        refine (Int.zpow_le_iff_le_log (by norm_num) hq).1 ?_
        push_cast; rw [zpow_natCast]; exact h1
      have a2 : Int.log 2 q < (f.emax : ℤ) := by
        refine (Int.lt_zpow_iff_log_lt (by norm_num) hq).1 ?_
        push_cast; rw [zpow_natCast]; exact h2
      omega
    unfold ulpExp
    rw [abs_of_pos hq, hlog, max_eq_left (by omega)]
    omega
  have unit : (2 : ℚ) ^ ((f.emax : ℤ) - f.p) * 2 ^ f.p = 2 ^ f.emax := by
    rw [zpow_sub₀ (by norm_num), zpow_natCast, zpow_natCast]; field_simp
  have half : (2 : ℚ) ^ f.emax / 2 ^ (f.p + 1) = 2 ^ ((f.emax : ℤ) - f.p) / 2 := by
    rw [← unit, pow_succ]; field_simp
  have hu : (0 : ℚ) < 2 ^ ((f.emax : ℤ) - f.p) := zpow_pos (by norm_num) _
  have hhalf : (2 : ℚ) ^ (f.emax - 1) * 2 = 2 ^ f.emax := by
    rw [← pow_succ]; congr 1; omega
  have hp2 : (2 : ℚ) ≤ 2 ^ f.p := by
    calc (2 : ℚ) = 2 ^ 1 := by norm_num
      _ ≤ _ := pow_le_pow_right₀ (by norm_num) hp
  have hlim : (2 : ℚ) ^ (f.emax - 1) ≤ 2 ^ f.emax - 2 ^ f.emax / 2 ^ (f.p + 1) := by
    rw [half]
    nlinarith
  constructor
  · intro h
    by_contra hc
    push Not at hc
    have hlt : q < 2 ^ f.emax := hc.trans (by linarith [show (0 : ℚ) < 2 ^ f.emax / 2 ^ (f.p + 1) by positivity])
    by_cases hlow : (2 : ℚ) ^ (f.emax - 1) ≤ q
    · have he := top q hlow hlt
      unfold raw at h
      rw [he, ← unit, mul_comm] at h
      have h1 := (mul_le_mul_iff_of_pos_right hu).1 h
      have h2 : q / 2 ^ ((f.emax : ℤ) - f.p) < 2 ^ f.p - 1 / 2 := by
        rw [div_lt_iff₀ hu, sub_mul, mul_comm ((2 : ℚ) ^ f.p), unit]
        rw [half] at hc; linarith
      have h3 := Int.floor_le (q / 2 ^ ((f.emax : ℤ) - f.p))
      rcases rne_cases (q / 2 ^ ((f.emax : ℤ) - f.p)) with ⟨e1, h4⟩ | ⟨e1, h4⟩
      · rw [e1] at h1; linarith
      · rw [e1] at h1; push_cast at h1; linarith
    · push Not at hlow
      have h1 : q ≤ f.maxVal := by
        unfold maxVal
        have : (2 : ℚ) ^ f.emax / 2 ^ f.p ≤ 2 ^ f.emax / 2 := by gcongr
        linarith
      obtain ⟨r, hr, -⟩ := f.rnd_finite hf (q := q) (by rw [abs_of_pos hq]; exact h1)
      rw [rnd_eq_raw, if_pos h] at hr
      cases hr
  · intro h
    refine le_trans ?_ (f.raw_mono hp h)
    have hlt : (2 : ℚ) ^ f.emax - 2 ^ f.emax / 2 ^ (f.p + 1) < 2 ^ f.emax :=
      by linarith [show (0 : ℚ) < 2 ^ f.emax / 2 ^ (f.p + 1) by positivity]
    have he := top _ hlim hlt
    unfold raw
    rw [he]
    have hy : ((2 : ℚ) ^ f.emax - 2 ^ f.emax / 2 ^ (f.p + 1)) / 2 ^ ((f.emax : ℤ) - f.p) =
        ((2 ^ f.p - 1 : ℤ) : ℚ) + 1 / 2 := by
      rw [half, div_eq_iff hu.ne', ← unit]; push_cast; ring
    have hfl : ⌊((2 ^ f.p - 1 : ℤ) : ℚ) + 1 / 2⌋ = 2 ^ f.p - 1 := by
      rw [Int.floor_eq_iff]; constructor <;> linarith
    have hodd : (2 ^ f.p - 1 : ℤ) % 2 ≠ 0 := by
      rw [show f.p = f.p - 1 + 1 by omega, pow_succ]; omega
    have hr : rne (((2 ^ f.p - 1 : ℤ) : ℚ) + 1 / 2) = 2 ^ f.p := by
      unfold rne
      simp only [hfl, add_sub_cancel_left, lt_irrefl, if_false, hodd]
      omega
    rw [hy, hr, ← unit, mul_comm]
    push_cast
    exact le_rfl

theorem rnd_neg (q : ℚ) : f.rnd (-q) = (f.rnd q).neg := by
  have hB : (0 : ℚ) < 2 ^ f.emax := by positivity
  rw [rnd_eq_raw, rnd_eq_raw, raw_neg]
  by_cases h1 : 2 ^ f.emax ≤ f.raw q
  · rw [if_neg (by linarith), if_pos (by linarith), if_pos h1]; rfl
  · by_cases h2 : f.raw q ≤ -(2 ^ f.emax)
    · rw [if_pos (by linarith), if_neg h1, if_pos h2]; rfl
    · rw [if_neg (by linarith), if_neg (by linarith), if_neg h1, if_neg h2]; rfl

/-- rounding to nearest even, when two numbers are equally near -/
theorem tie_even {q x : ℚ} (hf : f.Normal) (h0 : q ≠ 0) (hx : f.Rep x) (hne : x ≠ f.raw q)
    (hd : |q - f.raw q| = |q - x|) : rne (q / 2 ^ f.ulpExp q) % 2 = 0 := by
  have h2e : (0 : ℚ) < 2 ^ f.ulpExp q := zpow_pos (by norm_num) _
  have conv : ∀ y : ℚ, |q - y * 2 ^ f.ulpExp q| = |q / 2 ^ f.ulpExp q - y| * 2 ^ f.ulpExp q := by
    intro y
    conv_rhs => rw [← abs_of_pos h2e, ← abs_mul, abs_of_pos h2e]
    congr 1; field_simp
  -- `x` is a multiple of the unit, too
  have hmult : ∃ k : ℤ, x = k * 2 ^ f.ulpExp q := by
    obtain ⟨m, e, rfl, hm, he, -⟩ := hx
    rcases le_or_gt (f.ulpExp q) e with he' | he'
    · refine ⟨m * 2 ^ (e - f.ulpExp q).toNat, ?_⟩
      push_cast
      rw [← zpow_natCast, Int.toNat_of_nonneg (by omega), mul_assoc, ← zpow_add₀ (by norm_num)]
      congr 2; ring
    · have hlog : f.ulpExp q = Int.log 2 |q| + 1 - f.p := by
        unfold Fmt.ulpExp at he' ⊢
        rcases max_choice (Int.log 2 |q| + 1 - f.p) f.emin with h | h
        · exact h
        · rw [h] at he'; omega
      have hp := hf.p_pos
      have hB : (2 : ℚ) ^ (f.p - 1 : ℕ) * 2 ^ f.ulpExp q ≤ |q| := by
        have h2 := Int.zpow_log_le_self (b := 2) (r := |q|) (by norm_num) (abs_pos.2 h0)
        refine le_trans (le_of_eq ?_) h2
        push_cast
        rw [hlog, ← zpow_natCast, ← zpow_add₀ (by norm_num)]
        congr 1; omega
      have hxB : |(m : ℚ) * 2 ^ e| ≤ (2 : ℚ) ^ (f.p - 1 : ℕ) * 2 ^ f.ulpExp q := by
        have hmq : |(m : ℚ)| ≤ 2 ^ f.p := by exact_mod_cast hm
        have h2e' : (0 : ℚ) < 2 ^ e := zpow_pos (by norm_num) _
        rw [abs_mul, abs_of_pos h2e']
        refine (mul_le_mul_of_nonneg_right hmq h2e'.le).trans ?_
        rw [← zpow_natCast (2 : ℚ) f.p, ← zpow_natCast (2 : ℚ) (f.p - 1), ← zpow_add₀ (by norm_num),
          ← zpow_add₀ (by norm_num)]
        exact zpow_le_zpow_right₀ (by norm_num) (by omega)
      have near : ∀ k : ℤ, |q - f.raw q| ≤ |q - k * 2 ^ f.ulpExp q| := by
        intro k
        unfold raw
        rw [conv, conv]
        exact mul_le_mul_of_nonneg_right (rne_near _ k) h2e.le
      have b1 := near (2 ^ (f.p - 1))
      have b2 := near (-2 ^ (f.p - 1))
      push_cast at b1 b2
      rw [neg_mul] at b2
      rw [hd] at b1 b2
      have : ∃ s : ℤ, (m : ℚ) * 2 ^ e = s * ((2 : ℚ) ^ (f.p - 1 : ℕ) * 2 ^ f.ulpExp q) := by
        generalize (2 : ℚ) ^ (f.p - 1 : ℕ) * 2 ^ f.ulpExp q = B at *
        generalize (m : ℚ) * 2 ^ e = x at *
        rw [abs_le] at hxB
        rcases le_total 0 q with hq | hq
        · rw [abs_of_nonneg hq] at hB
          rw [abs_of_nonneg (a := q - B) (by linarith), abs_of_nonneg (a := q - x) (by linarith)] at b1
          exact ⟨1, by push_cast; linarith⟩
        · rw [abs_of_nonpos hq] at hB
          rw [abs_of_nonpos (a := q - -B) (by linarith), abs_of_nonpos (a := q - x) (by linarith)] at b2
          exact ⟨-1, by push_cast; linarith⟩
      obtain ⟨s, hs⟩ := this
      exact ⟨s * 2 ^ (f.p - 1), by rw [hs]; push_cast; ring⟩
  obtain ⟨k, rfl⟩ := hmult
  unfold raw at hd hne
  rw [conv, conv] at hd
  have hd := mul_right_cancel₀ h2e.ne' hd
  have hk : k ≠ rne (q / 2 ^ f.ulpExp q) := fun h => hne (by rw [h])
  generalize q / 2 ^ f.ulpExp q = y at *
  have h1 := Int.floor_le y
  have h2 := Int.lt_floor_add_one y
  -- both neighbours are equally near
  have hmid : y - ⌊y⌋ = 1 / 2 := by
    have n1 := rne_near y ⌊y⌋
    have n2 := rne_near y (⌊y⌋ + 1)
    rcases rne_cases y with ⟨e1, h4⟩ | ⟨e1, h4⟩
    · rw [e1] at hd hk n1 n2
      rw [abs_of_nonneg (a := y - ⌊y⌋) (by linarith)] at hd
      rcases lt_or_gt_of_ne hk with hlt | hgt
      · have : (k : ℚ) + 1 ≤ ⌊y⌋ := by exact_mod_cast hlt
        rw [abs_of_nonneg (by linarith)] at hd; linarith
      · have : (⌊y⌋ : ℚ) + 1 ≤ k := by exact_mod_cast hgt
        rw [abs_of_nonpos (by linarith)] at hd; linarith
    · rw [e1] at hd hk n1 n2
      push_cast at hd
      rw [abs_of_nonpos (a := y - (⌊y⌋ + 1)) (by linarith)] at hd
      rcases lt_or_gt_of_ne hk with hlt | hgt
      · have : (k : ℚ) ≤ ⌊y⌋ := by exact_mod_cast Int.lt_add_one_iff.1 hlt
        rw [abs_of_nonneg (by linarith)] at hd; linarith
      · have : (⌊y⌋ : ℚ) + 1 + 1 ≤ k := by exact_mod_cast hgt
        rw [abs_of_nonpos (by linarith)] at hd; linarith
  unfold rne
  simp only [hmid, lt_irrefl, if_false]
  split
  · assumption
  · omega
end Fmt
end BSQ
