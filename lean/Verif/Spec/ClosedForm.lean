import Verif.Spec.JoinReturns
import Verif.Spec.RoundOff
import Verif.Spec.Assembled
import Verif.Spec.Misc
/-!
# What queries over arbitrary sources should evaluate to

For each shipped type: when operations are small enough together (`Fits`), and what the result is (`Value`).  The
conditions bound the magnitudes of the operands, so that having fewer operands never hurts.
-/
namespace BSQ
open Contrib

/-- However fitting operations are put together, the result evaluates to something that satisfies `Value`; the order
of the operations does not matter. -/
structure ClosedForm {V : Type} (D : StatValue V) (okOp : StatOp D → Prop) (Fits : List (StatOp D) → Prop)
    (Value : List (StatOp D) → D.Out → Prop) : Prop where
  hereditary : Hereditary Fits
  eval : ∀ t : Tree D, t.NoReset → (∀ o ∈ t.leaves, okOp o) → Fits t.leaves →
    ∃ v out, t.run = .ok v ∧ D.eval v = .ok out ∧ Value t.leaves out
  perm : ∀ L L' out, L.Perm L' → Value L out → Value L' out

/-- an operation read as what it is -/
def asOp {X : (V : Type) × StatValue V} {V : Type} {D : StatValue V} (h : X = ⟨V, D⟩) (o : StatOp X.2) :
    StatOp D := cast (congrArg (fun x : (V : Type) × StatValue V => StatOp x.2) h) o

/-! ### exact types -/

def statInt.Value (t : NumTy) (L : List (StatOp (statInt t))) (out : ℤ) : Prop :=
  let C := L.map statInt.contrib
  out = clampTo (total C * product C) (floorOf t.prim.lo C) (capOf t.prim.hi C)

/-- in release builds and over `Wrapping`: the product wraps around -/
def statInt.WrapValue (t : NumTy) (L : List (StatOp (statInt t))) (out : ℤ) : Prop :=
  let C := L.map statInt.contrib
  out = clampTo (t.prim.wrap (total C * product C)) (floorOf t.prim.lo C) (capOf t.prim.hi C)

def statIntPercentAdditive.Fits (t : NumTy) {R : Rounding} {S : Int}
    (L : List (StatOp (statIntPercentAdditive t R S))) : Prop :=
  let C := L.map statIntPercentAdditive.contrib
  absSum (addends C) ≤ t.prim.hi ∧ |S| + absSum (mults C) ≤ t.prim.hi ∧
  absSum (addends C) * (|S| + absSum (mults C)) + |S| ≤ t.prim.hi

def statIntPercentAdditive.Value (t : NumTy) {R : Rounding} {S : Int}
    (L : List (StatOp (statIntPercentAdditive t R S))) (out : ℤ) : Prop :=
  let C := L.map statIntPercentAdditive.contrib
  ∃ z, Rounds R (((total C : ℤ) : ℚ) * ((S : ℚ) + ((multSum C : ℤ) : ℚ)) / (S : ℚ)) z ∧
    out = clampTo z (floorOf t.prim.lo C) (capOf t.prim.hi C)

def statIntFraction.Fits (t : NumTy) {R : Rounding} (L : List (StatOp (statIntFraction t R))) : Prop :=
  let C := L.map statIntFraction.contrib
  absSum (addends C) ≤ t.prim.hi ∧ numSize (mults C) ≤ t.prim.hi ∧
  numSize (mults C) * absSum (addends C) + denSize (mults C) ≤ t.prim.hi

def statIntFraction.Value (t : NumTy) {R : Rounding} (L : List (StatOp (statIntFraction t R))) (out : ℤ) : Prop :=
  let C := L.map statIntFraction.contrib
  ∃ z, Rounds R (((total C : ℤ) : ℚ) * product C) z ∧ out = clampTo z (floorOf t.prim.lo C) (capOf t.prim.hi C)

def statFloat.FracFits (t : NumTy) (L : List (StatOp (statFloat (Frac.ops t)))) : Prop :=
  let C := L.map statFloat.fracContrib
  SumFits t (addends C) ∧ ProdFits t (mults C) ∧
  absSum (addends C) * denSize (addends C) * numSize (mults C) ≤ t.prim.hi ∧
  denSize (addends C) * denSize (mults C) ≤ t.prim.hi

def statFloat.FracValue (t : NumTy) (L : List (StatOp (statFloat (Frac.ops t)))) (out : Frac) : Prop :=
  let C := L.map statFloat.fracContrib
  out.toRat = clampTo (total C * product C) (floorOf (t.prim.lo : ℚ) C) (capOf (t.prim.hi : ℚ) C)

def statFloatAdditive.FracFits (t : NumTy) (L : List (StatOp (statFloatAdditive (Frac.ops t)))) : Prop :=
  let C := L.map statFloatAdditive.fracContrib
  SumFits t (addends C) ∧ SumFits t (mults C ++ [1]) ∧
  absSum (addends C) * denSize (addends C) * (absSum (mults C ++ [1]) * denSize (mults C)) ≤ t.prim.hi ∧
  denSize (addends C) * denSize (mults C) ≤ t.prim.hi

def statFloatAdditive.FracValue (t : NumTy) (L : List (StatOp (statFloatAdditive (Frac.ops t)))) (out : Frac) :
    Prop :=
  let C := L.map statFloatAdditive.fracContrib
  out.toRat = clampTo (total C * (1 + multSum C)) (floorOf (t.prim.lo : ℚ) C) (capOf (t.prim.hi : ℚ) C)

def statMult.FracFits (t : NumTy) (L : List (StatOp (statMult (Frac.ops t)))) : Prop :=
  ProdFits t (mults (L.map statMult.fracContrib))

def statMult.FracValue (t : NumTy) (L : List (StatOp (statMult (Frac.ops t)))) (out : Frac) : Prop :=
  let C := L.map statMult.fracContrib
  out.toRat = clampTo (product C) (floorOf (t.prim.lo : ℚ) C) (capOf (t.prim.hi : ℚ) C)

def statFlags.Value (T : Type) [BitXorFlags T] [FlagSet T] (L : List (StatOp (statFlags T))) (out : T) : Prop :=
  ∀ f : FlagSet.Flag T, FlagSet.has out f ↔ (∃ o ∈ L, o.Sets f) ∧ ¬ ∃ o ∈ L, o.Clears f

def statExists.Value (L : List (StatOp statExists)) (out : Bool) : Prop :=
  out = true ↔ ∃ o ∈ L, o.existsArg = true

def statOnce.Value (T : Type) (L : List (StatOp (statOnce T))) (out : StatOnce T) : Prop :=
  out = onceSpec (L.filterMap StatOp.onceArg)

/-! ### `f32` and `f64`: up to the accumulated rounding error -/

def statFloat.FlFits (f : Fmt) (L : List (StatOp (statFloat (Fl.ops f)))) : Prop :=
  let C := L.map statFloat.qContrib
  SumsFit f (addends C) ∧ ProductsFit f (mults C) ∧
  f.growth ((addends C).length + (mults C).length) * (absSum (addends C) * hiProd (mults C)) ≤ f.maxVal

def statFloat.FlValue (f : Fmt) (L : List (StatOp (statFloat (Fl.ops f)))) (out : Fl) : Prop :=
  let C := L.map statFloat.qContrib
  ∃ x, out = .fin x ∧ |x - clampTo (total C * product C) (floorOf (-f.maxVal) C) (capOf f.maxVal C)| ≤
    (f.growth ((addends C).length + (mults C).length) - 1) * (absSum (addends C) * |product C|) + f.tiny

def statFloatAdditive.FlFits (f : Fmt) (L : List (StatOp (statFloatAdditive (Fl.ops f)))) : Prop :=
  let C := L.map statFloatAdditive.qContrib
  SumsFit f (addends C) ∧ SumsFit f (mults C ++ [1]) ∧
  f.growth ((addends C).length + (mults C).length + 1) * (absSum (addends C) * (absSum (mults C) + 1)) ≤ f.maxVal

def statFloatAdditive.FlValue (f : Fmt) (L : List (StatOp (statFloatAdditive (Fl.ops f)))) (out : Fl) : Prop :=
  let C := L.map statFloatAdditive.qContrib
  ∃ x, out = .fin x ∧ |x - clampTo (total C * (multSum C + 1)) (floorOf (-f.maxVal) C) (capOf f.maxVal C)| ≤
    (f.growth ((addends C).length + (mults C).length + 1) - 1) * (absSum (addends C) * (absSum (mults C) + 1)) +
      f.tiny

def statMult.FlFits (f : Fmt) (L : List (StatOp (statMult (Fl.ops f)))) : Prop :=
  ProductsFit f (mults (L.map statMult.qContrib))

def statMult.FlValue (f : Fmt) (L : List (StatOp (statMult (Fl.ops f)))) (out : Fl) : Prop :=
  let C := L.map statMult.qContrib
  ∃ x, out = .fin x ∧ |x - clampTo (product C) (floorOf (-f.maxVal) C) (capOf f.maxVal C)| ≤
    (f.growth ((mults C).length - 1) - 1) * |product C|

section
variable (t : NumTy) (f : Fmt) {O : FloatOps Fl} {toF : Int → Fl} {ofF : Fl → Int} {R : Rounding}

def statIntFloatMul.FlFits (L : List (StatOp (statIntFloatMul t O toF ofF R))) : Prop :=
  let C := L.map statIntFloatMul.contrib
  absSum (addends C) ≤ t.prim.hi ∧ ProductsFit f (mults C) ∧ ((absSum (addends C) : ℤ) : ℚ) ≤ f.maxVal ∧
  f.growth ((mults C).length + 2) * (((absSum (addends C) : ℤ) : ℚ) * hiProd (mults C)) ≤ f.maxVal

/-- and one for the final rounding -/
def statIntFloatMul.FlValue (L : List (StatOp (statIntFloatMul t O toF ofF R))) (out : ℤ) : Prop :=
  let C := L.map statIntFloatMul.contrib
  let T : ℚ := (total C : ℤ)
  |(out : ℚ) - clampTo (T * product C) (floorOf t.prim.lo C : ℤ) (capOf t.prim.hi C : ℤ)| ≤
    (f.growth ((mults C).length + 2) - 1) * (|T| * |product C|) + f.tiny + 1
end

end BSQ
