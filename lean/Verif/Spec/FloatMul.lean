import Verif.Spec.Numeric
import Verif.Proofs.Ieee
/-!
# How operations on `StatIntFloatMul` read as contributions, and when its float multipliers are exact
-/
namespace BSQ
open Contrib

/-- the exact value of a finite float (0 for the others; only used where `Finite` holds) -/
def Fl.toQ : Fl → ℚ
  | .fin q => q
  | _ => 0

/-- `Add(a)` and a base value contribute an addend, `Mul(m)` a multiplier, `Min`/`Max` bounds -/
def statIntFloatMul.contrib {t : NumTy} {O : FloatOps Fl} {toF : Int → Fl} {ofF : Fl → Int} {R : Rounding} :
    StatOp (statIntFloatMul t O toF ofF R) → Contrib ℤ ℚ ℤ
  | .add a => .add a
  | .mul m => .mul m.toQ
  | .min b => .atLeast b
  | .max b => .atMost b
  | .base b => .add b

/-- multipliers are finite floats, other operands numbers of the integer type -/
def statIntFloatMul.okOp {t : NumTy} {O : FloatOps Fl} {toF : Int → Fl} {ofF : Fl → Int} {R : Rounding} :
    StatOp (statIntFloatMul t O toF ofF R) → Prop
  | .add a => t.prim.InRange a
  | .mul m => ∃ q, m = .fin q
  | .min b => t.prim.InRange b
  | .max b => t.prim.InRange b
  | .base b => t.prim.InRange b

/-- No product of some of the multipliers needs rounding. -/
def ExactProducts {A B : Type} (f : Fmt) (C : List (Contrib A ℚ B)) : Prop :=
  ∀ K, K.Subperm C → f.Rep (product K)

/-- No sum of some of the addends needs rounding. -/
def ExactSums {M B : Type} (f : Fmt) (C : List (Contrib ℚ M B)) : Prop :=
  ∀ K, K.Subperm C → f.Rep (total K)

/-- No sum of some of the multipliers needs rounding. -/
def ExactMultSums {A B : Type} (f : Fmt) (C : List (Contrib A ℚ B)) : Prop :=
  ∀ K, K.Subperm C → f.Rep (multSum K)

/-- operands of the float stats read as exact numbers; bounds play no role here -/
def statFloat.exactContrib {O : FloatOps Fl} : StatOp (statFloat O) → Contrib ℚ ℚ Unit
  | .add a => .add a.toQ
  | .mul m => .mul m.toQ
  | .min _ => .atLeast ()
  | .max _ => .atMost ()
  | .base b => .add b.toQ
def statFloatAdditive.exactContrib {O : FloatOps Fl} : StatOp (statFloatAdditive O) → Contrib ℚ ℚ Unit
  | .add a => .add a.toQ
  | .mul m => .mul m.toQ
  | .min _ => .atLeast ()
  | .max _ => .atMost ()
  | .base b => .add b.toQ
def statMult.exactContrib {O : FloatOps Fl} : StatOp (statMult O) → Contrib ℚ ℚ Unit
  | .mul m => .mul m.toQ
  | .min _ => .atLeast ()
  | .max _ => .atMost ()
  | .base b => .mul b.toQ

/-- addends, multipliers and bases are finite; bounds may be anything, NaN included -/
def statFloat.Finite {O : FloatOps Fl} : StatOp (statFloat O) → Prop
  | .add a => ∃ q, a = .fin q
  | .mul m => ∃ q, m = .fin q
  | .base b => ∃ q, b = .fin q
  | _ => True
def statFloatAdditive.Finite {O : FloatOps Fl} : StatOp (statFloatAdditive O) → Prop
  | .add a => ∃ q, a = .fin q
  | .mul m => ∃ q, m = .fin q
  | .base b => ∃ q, b = .fin q
  | _ => True
def statMult.Finite {O : FloatOps Fl} : StatOp (statMult O) → Prop
  | .mul m => ∃ q, m = .fin q
  | .base b => ∃ q, b = .fin q
  | _ => True

end BSQ
