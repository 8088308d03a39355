import Verif.Spec.Unordered
import Verif.Spec.Rational
import Verif.Model.Ieee
import Mathlib.Order.WithBot
/-!
# What it means for an evaluated stat to respect its bounds
-/
namespace BSQ

/-- `out` is the evaluation of a value assembled by `tr`.  Bounds and results are compared in a linear order
`B`; `bval` reads a bound (`none`: a NaN bound, which is ignored), `lo0` is the type's own minimum. -/
structure BoundsRespected {V : Type} {D : StatValue V} (tr : Tree D) {B : Type} [LinearOrder B]
    (bval : D.BoundsT → Option B) (lo0 : B) (out : B) : Prop where
  /-- at least every registered minimum -/
  lower : ∀ b x, StatOp.min b ∈ tr.leaves → bval b = some x → x ≤ out
  /-- at most every registered maximum that no registered minimum exceeds -/
  upper : ∀ b x, StatOp.max b ∈ tr.leaves → bval b = some x → lo0 ≤ x →
    (∀ a y, StatOp.min a ∈ tr.leaves → bval a = some y → y ≤ x) → out ≤ x
  /-- when a minimum exceeds a maximum, the result is one of the minima (hence the greatest) -/
  conflict : ∀ a y b x, StatOp.min a ∈ tr.leaves → bval a = some y → StatOp.max b ∈ tr.leaves →
    bval b = some x → x < y → lo0 ≤ y →
    ∃ m z, StatOp.min m ∈ tr.leaves ∧ bval m = some z ∧ out = z
  /-- never below the type's own minimum -/
  range : lo0 ≤ out

/-- the place of a float in the order of extended numbers; `none` for NaN -/
def Fl.ext : Fl → Option (WithBot (WithTop ℚ))
  | .nan => none
  | .ninf => some ⊥
  | .pinf => some ((⊤ : WithTop ℚ) : WithBot (WithTop ℚ))
  | .fin q => some (((q : ℚ) : WithTop ℚ) : WithBot (WithTop ℚ))

end BSQ
