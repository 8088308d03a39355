import Verif.Model.Ratio
import Verif.Spec.Numeric
/-!
# Exact arithmetic of fractions
-/
namespace BSQ
namespace Frac

/-- what the operators compute -/
def Op.Exact : Op → ℚ → ℚ → ℚ → Prop
  | .add, x, y, z => z = x + y
  | .sub, x, y, z => z = x - y
  | .mul, x, y, z => z = x * y
  | .div, x, y, z => y ≠ 0 ∧ z = x / y
  -- what is left of `x` after taking away `y` as often as `x / y` says, rounded toward zero
  | .rem, x, y, z => y ≠ 0 ∧ ∃ k : ℤ, Rounds .truncate (x / y) k ∧ z = x - y * k

/-- representable, and so is its negation in a signed type -/
def Small (t : NumTy) (x : Int) : Prop := t.prim.InRange x ∧ |x| ≤ t.prim.hi

/-- the numbers one meets when calculating by hand are representable -/
def Op.Fits (t : NumTy) (a b : Frac) : Op → Prop
  | .add => Small t (a.num * b.den) ∧ Small t (b.num * a.den) ∧ Small t (a.num * b.den + b.num * a.den) ∧
      Small t (a.den * b.den)
  | .sub => Small t (a.num * b.den) ∧ Small t (b.num * a.den) ∧ Small t (a.num * b.den - b.num * a.den) ∧
      Small t (a.den * b.den)
  | .mul => Small t (a.num * b.num) ∧ Small t (a.den * b.den)
  | .div => b.num ≠ 0 ∧ Small t (a.num * b.den) ∧ Small t (a.den * b.num)
  | .rem => b.num ≠ 0 ∧ Small t (a.num * b.den) ∧ Small t (b.num * a.den) ∧ Small t (a.den * b.den)

end Frac
end BSQ
