import Verif.Model.Rounding
import Mathlib.Data.Rat.Floor
import Mathlib.Algebra.Order.Field.Rat
/-!
# Exact rationals: what fractions denote and what rounding should do
-/
namespace BSQ

/-- the rational number a fraction denotes -/
def Frac.toRat (f : Frac) : ℚ := (f.num : ℚ) / (f.den : ℚ)

/-- lowest terms with a positive denominator: what `Fraction::new` produces -/
structure Frac.WF (f : Frac) : Prop where
  pos : 0 < f.den
  coprime : Int.gcd f.num f.den = 1

/-- the integer `z` is `x` rounded in the given mode -/
def Rounds : Rounding → ℚ → ℤ → Prop
  -- toward zero
  | .truncate, x, z => |(z : ℚ)| ≤ |x| ∧ |x| < |(z : ℚ)| + 1 ∧ 0 ≤ (z : ℚ) * x
  -- the greatest integer not above
  | .floor, x, z => (z : ℚ) ≤ x ∧ x < z + 1
  -- the least integer not below
  | .ceil, x, z => (z : ℚ) - 1 < x ∧ x ≤ z
  -- the nearest integer, ties away from zero
  | .round, x, z => |x - z| ≤ 1 / 2 ∧ (|x - z| = 1 / 2 → |x| < |(z : ℚ)|)
  -- toward zero, but a non-zero input never becomes zero
  | .truncateSigned, x, z =>
    (x = 0 → z = 0) ∧
    (0 < x → 1 ≤ z ∧ (x < 1 → z = 1) ∧ (1 ≤ x → (z : ℚ) ≤ x ∧ x < z + 1)) ∧
    (x < 0 → z ≤ -1 ∧ (-1 < x → z = -1) ∧ (x ≤ -1 → x ≤ (z : ℚ) ∧ (z : ℚ) - 1 < x))

end BSQ
