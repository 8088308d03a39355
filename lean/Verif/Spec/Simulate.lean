import Verif.Spec.Unordered
import Verif.Model.Types.Int
/-!
# The same program over another integer type

`Retype` relates two dictionaries over the same representation, for instance `StatInt<i32>` in a debug build
and `StatInt<Saturating<i32>>`, by saying how operands of the one are read as operands of the other.
-/
namespace BSQ

/-- whenever the first computation returns, the second returns the same -/
def Agrees {α : Type} (x y : Res α) : Prop := ∀ v, x = .ok v → y = .ok v

/-- reading operands of `D` as operands of `D'` -/
structure Retype {V : Type} (D D' : StatValue V) where
  add : D.AddT → D'.AddT
  mul : D.MulT → D'.MulT
  bit : D.BitT → D'.BitT
  bounds : D.BoundsT → D'.BoundsT
  base : D.BaseT → D'.BaseT
  out : D.Out → D'.Out

namespace Retype
variable {V : Type} {D D' : StatValue V} (T : Retype D D')

/-- the same operation -/
def op : StatOp D → StatOp D'
  | .add x => .add (T.add x)
  | .mul x => .mul (T.mul x)
  | .or x => .or (T.bit x)
  | .not x => .not (T.bit x)
  | .min x => .min (T.bounds x)
  | .max x => .max (T.bounds x)
  | .base x => .base (T.base x)

/-- the same assembly -/
def tree : Tree D → Tree D'
  | .dflt => .dflt
  | .base b => .base (T.base b)
  | .op t o => .op (tree t) (T.op o)
  | .join l r => .join (tree l) (tree r)
end Retype

/-- `D'` does what `D` does whenever `D` does not panic: every assembly that returns returns the same value,
every evaluation that returns returns the same output -/
structure Simulates {V : Type} {D D' : StatValue V} (T : Retype D D') : Prop where
  assembles : ∀ (tr : Tree D) (v : V), tr.run = .ok v → (T.tree tr).run = .ok v
  evaluates : ∀ (v : V) (o : D.Out), D.eval v = .ok o → D'.eval v = .ok (T.out o)

/-- the overflow-checked primitive integers of the same width and signedness as `t` -/
def NumTy.checked (t : NumTy) : NumTy := ⟨t.prim, .prim, .debug⟩

/-- the operands of each integer stat are plain machine integers (and fractions, floats): they are read as
themselves -/
def Retype.int (t t' : NumTy) : Retype (statInt t) (statInt t') := ⟨id, id, id, id, id, id⟩
def Retype.fraction (t t' : NumTy) (R : Rounding) : Retype (statIntFraction t R) (statIntFraction t' R) :=
  ⟨id, id, id, id, id, id⟩
def Retype.floatMul {F : Type} (t t' : NumTy) (O : FloatOps F) (toF : Int → F) (ofF : F → Int) (R : Rounding) :
    Retype (statIntFloatMul t O toF ofF R) (statIntFloatMul t' O toF ofF R) := ⟨id, id, id, id, id, id⟩
def Retype.percentAdditive (t t' : NumTy) (R : Rounding) (S : Int) :
    Retype (statIntPercentAdditive t R S) (statIntPercentAdditive t' R S) := ⟨id, id, id, id, id, id⟩
def Retype.percent (t t' : NumTy) (R : Rounding) (S : Int) :
    Retype (statIntPercent t R S) (statIntPercent t' R S) := ⟨id, id, id, id, id, id⟩

end BSQ
