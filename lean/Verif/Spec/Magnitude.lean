import Verif.Spec.Numeric
/-!
# How large the numbers of a calculation can get

Upper bounds for the intermediate results of adding up or multiplying a list of rationals in any order and
grouping, without cancelling anything.
-/
namespace BSQ
namespace Contrib
variable {A M B : Type}

/-- the addends among the contributions -/
def addends : List (Contrib A M B) → List A
  | [] => []
  | .add a :: l => a :: addends l
  | _ :: l => addends l

/-- the multipliers among the contributions -/
def mults : List (Contrib A M B) → List M
  | [] => []
  | .mul m :: l => m :: mults l
  | _ :: l => mults l

end Contrib

/-- the sum of the magnitudes -/
def absSum {A : Type} [AddCommGroup A] [Lattice A] (l : List A) : A := (l.map fun a => |a|).sum

/-- the product of the numerators, counting `0` as `1` -/
def numSize (l : List ℚ) : ℤ := (l.map fun q => max 1 |q.num|).prod

/-- the product of the denominators -/
def denSize (l : List ℚ) : ℤ := (l.map fun q => (q.den : ℤ)).prod

/-- the sum of the list fits the type when written over the product of the denominators, whatever the signs -/
def SumFits (t : NumTy) (l : List ℚ) : Prop :=
  absSum l * denSize l ≤ t.prim.hi ∧ denSize l ≤ t.prim.hi

/-- the product of the list fits the type when written without cancelling -/
def ProdFits (t : NumTy) (l : List ℚ) : Prop := numSize l ≤ t.prim.hi ∧ denSize l ≤ t.prim.hi

end BSQ
