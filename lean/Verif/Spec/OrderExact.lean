import Verif.Spec.Numeric
/-!
# Which operations on a `StatInt` can overflow in some order
-/
namespace BSQ
open Contrib

/-- whichever of the operations are taken, their addends add up and their multipliers multiply within the type -/
def SelectionsFit (t : NumTy) (os : List (StatOp (statInt t))) : Prop :=
  ∀ S : List (StatOp (statInt t)), S.Sublist os →
    t.prim.InRange (total (S.map statInt.contrib)) ∧ t.prim.InRange (product (S.map statInt.contrib))

/-- a way of assembling a value from exactly these operations, in any order and grouping -/
structure AssemblyOf {V : Type} {D : StatValue V} (os : List (StatOp D)) (tr : Tree D) : Prop where
  noReset : tr.NoReset
  leaves : tr.leaves.Perm os

end BSQ
