import Verif.Proofs.Rounding
import Verif.Proofs.FracRange
/-!
# Rounding of fractions (C31) and conversion of scales (C33)
-/
namespace BSQ

/-! ## C31 -/

/-- C31: on a fraction in lowest terms, every rounding mode yields an integer, and it is the one the mode's
documentation describes (`Rounds`, Spec/Rational).  With overflow checks, i.e. whenever no intermediate
result overflows. -/
theorem C31_rounds_as_documented (t : NumTy) (h : t.ovf = .panic) (R : Rounding) (a r : Frac) (ha : a.WF)
    (e : R.apply (Frac.ops t) a = .ok r) : ∃ z : ℤ, r = ⟨z, 1⟩ ∧ Rounds R a.toRat z :=
  Frac.apply_ok h R ha e

/-- C31: the description of each mode determines the rounded integer. -/
theorem C31_spec_unique (R : Rounding) (x : ℚ) (z w : ℤ) (hz : Rounds R x z) (hw : Rounds R x w) : z = w :=
  Frac.rounds_unique R hz hw

/-- C31: integers round to themselves in each mode. -/
theorem C31_integers_fixed (t : NumTy) (h : t.ovf = .panic) (R : Rounding) (z : ℤ) (r : Frac)
    (e : R.apply (Frac.ops t) ⟨z, 1⟩ = .ok r) : r = ⟨z, 1⟩ := by
  obtain ⟨w, rfl, hw⟩ := Frac.apply_ok h R (Frac.wf_int z) e
  rw [Frac.toRat_int] at hw
  rw [Frac.rounds_unique R hw (Frac.rounds_int R z)]

/-- `-7/2` and `1/3` in `i32`, each mode -/
example : let O := Frac.ops ⟨.i32, .prim, .debug⟩
    Rounding.truncate.apply O ⟨-7, 2⟩ = .ok ⟨-3, 1⟩ ∧ Rounding.floor.apply O ⟨-7, 2⟩ = .ok ⟨-4, 1⟩ ∧
    Rounding.ceil.apply O ⟨-7, 2⟩ = .ok ⟨-3, 1⟩ ∧ Rounding.round.apply O ⟨-7, 2⟩ = .ok ⟨-4, 1⟩ ∧
    Rounding.truncateSigned.apply O ⟨1, 3⟩ = .ok ⟨1, 1⟩ ∧
    Rounding.truncateSigned.apply O ⟨-1, 3⟩ = .ok ⟨-1, 1⟩ ∧ (⟨-7, 2⟩ : Frac).WF := by
  refine ⟨by decide, by decide, by decide, by decide, by decide, by decide, by decide, by decide⟩

/-! ## C33 -/

/-- the nearest value of the integer type -/
def nearest (t : IntTy) (s : Int) : Int := if s < t.lo then t.lo else if t.hi < s then t.hi else s

theorem pow_mono {m n : Nat} (h : m ≤ n) : (2 : Int) ^ m ≤ 2 ^ n := by
  exact pow_le_pow_right₀ (by norm_num) h

/-- C33 holds for every integer type whose values fit in `i64`: `u8 … u32`, `i8 … i64` (and `usize` on 32
bit platforms), plain, `Wrapping` or `Saturating`. Missing from the full claim: the wider types, refuted
below. -/
theorem C33_small_types_partial (t : NumTy) (hb : 0 < t.prim.bits)
    (hw : t.prim.bits ≤ 63 ∨ (t.prim.bits = 64 ∧ t.prim.signed = true)) (s : Int) :
    t.fromI64 s = .ok (nearest t.prim s) := by
  have k : t.prim.bits ≤ 64 := by omega
  have rlo : IntTy.i64.InRange t.prim.lo ∧ IntTy.i64.InRange t.prim.hi := by
    have e1 : IntTy.i64.lo = -(2 ^ 63) := rfl
    have e2 : IntTy.i64.hi = 2 ^ 63 - 1 := rfl
    have p0 := IntTy.two_pow_pos (t.prim.bits - 1)
    have p1 := IntTy.two_pow_pos t.prim.bits
    unfold IntTy.InRange
    rw [e1, e2]
    cases hs : t.prim.signed with
    | true =>
      have := pow_mono (show t.prim.bits - 1 ≤ 63 by omega)
      simp only [IntTy.lo, IntTy.hi, hs, if_true]
      omega
    | false =>
      have := pow_mono (show t.prim.bits ≤ 63 by rcases hw with h | h; exact h; simp [hs] at h)
      simp only [IntTy.lo, IntTy.hi, hs]
      norm_num at this ⊢
      omega
  have hle := t.prim.lo_le_hi
  have b64 : 0 < IntTy.i64.bits := by decide
  unfold NumTy.fromI64
  simp only [IntTy.wrap_of_inRange b64 rlo.1, IntTy.wrap_of_inRange b64 rlo.2, not_lt.2 hle, if_false]
  have : t.prim.InRange (nearest t.prim s) := by
    unfold nearest IntTy.InRange
    split
    · omega
    · split <;> omega
  exact congrArg _ (IntTy.wrap_of_inRange hb this)

/-- C33 is false for every wider type, `u64`, `usize` (64 bit), `u128` and `i128`: `from_i64` panics
whatever its argument, because the bounds are cast to `i64` before clamping. -/
theorem C33_wide_types_panic (t : NumTy)
    (hw : (t.prim.signed = false ∧ 64 ≤ t.prim.bits) ∨ (t.prim.signed = true ∧ 65 ≤ t.prim.bits)) (s : Int) :
    t.fromI64 s = .error .panic := by
  have hlo : IntTy.i64.wrap t.prim.lo = 0 := by
    apply IntTy.eq_of_emod (t := IntTy.i64) (by decide) (IntTy.wrap_inRange (by decide) _) (by decide)
    rw [IntTy.wrap_emod]
    show t.prim.lo % 2 ^ 64 = 0 % 2 ^ 64
    rcases hw with ⟨h1, h2⟩ | ⟨h1, h2⟩
    · rw [IntTy.lo_of_unsigned h1]
    · obtain ⟨n, hn⟩ : ∃ n, t.prim.bits - 1 = 64 + n := ⟨t.prim.bits - 65, by omega⟩
      simp only [IntTy.lo, h1, if_true, hn, pow_add]
      rw [← Int.mul_neg, Int.mul_emod_right]; rfl
  have hhi : IntTy.i64.wrap t.prim.hi = -1 := by
    apply IntTy.eq_of_emod (t := IntTy.i64) (by decide) (IntTy.wrap_inRange (by decide) _) (by decide)
    rw [IntTy.wrap_emod]
    show t.prim.hi % 2 ^ 64 = -1 % 2 ^ 64
    rcases hw with ⟨h1, h2⟩ | ⟨h1, h2⟩
    · obtain ⟨n, hn⟩ : ∃ n, t.prim.bits = 64 + n := ⟨t.prim.bits - 64, by omega⟩
      simp only [IntTy.hi, h1, hn, pow_add]
      rw [Int.sub_eq_add_neg]; norm_num
    · obtain ⟨n, hn⟩ : ∃ n, t.prim.bits - 1 = 64 + n := ⟨t.prim.bits - 65, by omega⟩
      simp only [IntTy.hi, h1, if_true, hn, pow_add]
      rw [Int.sub_eq_add_neg]; norm_num
  simp only [NumTy.fromI64, hlo, hhi]
  rfl

/-- C33: the bounds of the supported types, bare, `Wrapping` or `Saturating` -/
theorem C33_bounds (k : Kind) (b : Build) :
    ((⟨.u8, k, b⟩ : NumTy).minValue, (⟨.u8, k, b⟩ : NumTy).maxValue) = (0, 255) ∧
    ((⟨.u16, k, b⟩ : NumTy).minValue, (⟨.u16, k, b⟩ : NumTy).maxValue) = (0, 65535) ∧
    ((⟨.u32, k, b⟩ : NumTy).minValue, (⟨.u32, k, b⟩ : NumTy).maxValue) = (0, 4294967295) ∧
    ((⟨.u64, k, b⟩ : NumTy).minValue, (⟨.u64, k, b⟩ : NumTy).maxValue) = (0, 18446744073709551615) ∧
    ((⟨.u128, k, b⟩ : NumTy).minValue, (⟨.u128, k, b⟩ : NumTy).maxValue) = (0, 340282366920938463463374607431768211455) ∧
    ((⟨.i8, k, b⟩ : NumTy).minValue, (⟨.i8, k, b⟩ : NumTy).maxValue) = (-128, 127) ∧
    ((⟨.i16, k, b⟩ : NumTy).minValue, (⟨.i16, k, b⟩ : NumTy).maxValue) = (-32768, 32767) ∧
    ((⟨.i32, k, b⟩ : NumTy).minValue, (⟨.i32, k, b⟩ : NumTy).maxValue) = (-2147483648, 2147483647) ∧
    ((⟨.i64, k, b⟩ : NumTy).minValue, (⟨.i64, k, b⟩ : NumTy).maxValue) = (-9223372036854775808, 9223372036854775807) ∧
    ((⟨.i128, k, b⟩ : NumTy).minValue, (⟨.i128, k, b⟩ : NumTy).maxValue) = (-170141183460469231731687303715884105728, 170141183460469231731687303715884105727) := by
  refine ⟨?_, ?_, ?_, ?_, ?_, ?_, ?_, ?_, ?_, ?_⟩ <;> exact Prod.ext (by simp only [NumTy.minValue]; decide) (by simp only [NumTy.maxValue]; decide)

/-- C33, type by type -/
theorem C33_each_type (k : Kind) (b : Build) (s : Int) :
    (⟨.u8, k, b⟩ : NumTy).fromI64 s = .ok (max (0) (min s 255)) ∧
    (⟨.u16, k, b⟩ : NumTy).fromI64 s = .ok (max (0) (min s 65535)) ∧
    (⟨.u32, k, b⟩ : NumTy).fromI64 s = .ok (max (0) (min s 4294967295)) ∧
    (⟨.i8, k, b⟩ : NumTy).fromI64 s = .ok (max (-128) (min s 127)) ∧
    (⟨.i16, k, b⟩ : NumTy).fromI64 s = .ok (max (-32768) (min s 32767)) ∧
    (⟨.i32, k, b⟩ : NumTy).fromI64 s = .ok (max (-2147483648) (min s 2147483647)) ∧
    (⟨.i64, k, b⟩ : NumTy).fromI64 s = .ok (max (-9223372036854775808) (min s 9223372036854775807)) ∧
    (⟨.u64, k, b⟩ : NumTy).fromI64 s = .error .panic ∧
    (⟨.u128, k, b⟩ : NumTy).fromI64 s = .error .panic ∧
    (⟨.i128, k, b⟩ : NumTy).fromI64 s = .error .panic := by
  have h : ∀ t : IntTy, nearest t s = max t.lo (min s t.hi) := by
    intro t
    have := t.lo_le_hi
    unfold nearest
    split <;> (try split) <;> omega
  refine ⟨?_, ?_, ?_, ?_, ?_, ?_, ?_, ?_, ?_, ?_⟩
  iterate 7 exact (C33_small_types_partial _ (by dsimp only; decide) (by dsimp only; decide) s).trans (congrArg _ (h _))
  all_goals exact C33_wide_types_panic _ (by dsimp only; decide) s

/-- `u8` clamps `100`, `300`, `-5`; `u64` panics on `100` -/
example : NumTy.fromI64 ⟨.u8, .prim, .release⟩ 100 = .ok 100 ∧
    NumTy.fromI64 ⟨.u8, .prim, .release⟩ 300 = .ok 255 ∧
    NumTy.fromI64 ⟨.u8, .wrapping, .release⟩ (-5) = .ok 0 ∧
    NumTy.fromI64 ⟨.u64, .prim, .release⟩ 100 = .error .panic := by
  refine ⟨by decide, by decide, by decide, by decide⟩

end BSQ
