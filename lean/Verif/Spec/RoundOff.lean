import Verif.Spec.Magnitude
import Verif.Spec.FloatMul
/-!
# How much rounding can add up to

Textbook error analysis of floating point: an operation whose result does not underflow changes it by a relative
error of at most `2^-p`.
-/
namespace BSQ

/-- the greatest relative error of one rounding -/
def Fmt.eps (f : Fmt) : ℚ := 1 / 2 ^ f.p

/-- what `n` roundings can enlarge a number by -/
def Fmt.growth (f : Fmt) (n : ℕ) : ℚ := (1 + f.eps) ^ n

/-- the least number with full precision -/
def Fmt.minNormal (f : Fmt) : ℚ := 2 ^ (f.emin + f.p - 1)

/-- half the distance of subnormal numbers -/
def Fmt.tiny (f : Fmt) : ℚ := 2 ^ (f.emin - 1)

/-- the product of the multipliers above one -/
def hiProd (l : List ℚ) : ℚ := (l.map fun m => max 1 |m|).prod

/-- the product of the multipliers below one (zeros do not count: they are exact) -/
def loProd (l : List ℚ) : ℚ := (l.map fun m => if m = 0 then 1 else min 1 |m|).prod

/-- no order of adding up can overflow -/
def SumsFit (f : Fmt) (l : List ℚ) : Prop := f.growth l.length * absSum l ≤ f.maxVal

/-- no order of multiplying can overflow or underflow -/
def ProductsFit (f : Fmt) (l : List ℚ) : Prop :=
  f.growth l.length * hiProd l ≤ f.maxVal ∧ f.minNormal ≤ (2 - f.growth l.length) * loProd l

/-- operands of the float stats read as exact numbers -/
def statFloat.qContrib {O : FloatOps Fl} : StatOp (statFloat O) → Contrib ℚ ℚ ℚ
  | .add a => .add a.toQ
  | .mul m => .mul m.toQ
  | .min b => .atLeast b.toQ
  | .max b => .atMost b.toQ
  | .base b => .add b.toQ
def statFloatAdditive.qContrib {O : FloatOps Fl} : StatOp (statFloatAdditive O) → Contrib ℚ ℚ ℚ
  | .add a => .add a.toQ
  | .mul m => .mul m.toQ
  | .min b => .atLeast b.toQ
  | .max b => .atMost b.toQ
  | .base b => .add b.toQ
def statMult.qContrib {O : FloatOps Fl} : StatOp (statMult O) → Contrib ℚ ℚ ℚ
  | .mul m => .mul m.toQ
  | .min b => .atLeast b.toQ
  | .max b => .atMost b.toQ
  | .base b => .mul b.toQ

/-- a finite float of the format -/
def Fl.IsNum (f : Fmt) (x : Fl) : Prop := ∃ q, x = .fin q ∧ f.Rep q

/-- all operands are finite floats of the format -/
def statFloat.Num (f : Fmt) {O : FloatOps Fl} : StatOp (statFloat O) → Prop
  | .add a => Fl.IsNum f a
  | .mul m => Fl.IsNum f m
  | .min b => Fl.IsNum f b
  | .max b => Fl.IsNum f b
  | .base b => Fl.IsNum f b
def statFloatAdditive.Num (f : Fmt) {O : FloatOps Fl} : StatOp (statFloatAdditive O) → Prop
  | .add a => Fl.IsNum f a
  | .mul m => Fl.IsNum f m
  | .min b => Fl.IsNum f b
  | .max b => Fl.IsNum f b
  | .base b => Fl.IsNum f b
def statMult.Num (f : Fmt) {O : FloatOps Fl} : StatOp (statMult O) → Prop
  | .mul m => Fl.IsNum f m
  | .min b => Fl.IsNum f b
  | .max b => Fl.IsNum f b
  | .base b => Fl.IsNum f b
def statIntFloatMul.Num (f : Fmt) {t : NumTy} {O : FloatOps Fl} {toF : Int → Fl} {ofF : Fl → Int}
    {R : Rounding} : StatOp (statIntFloatMul t O toF ofF R) → Prop
  | .add a => t.prim.InRange a
  | .mul m => Fl.IsNum f m
  | .min b => t.prim.InRange b
  | .max b => t.prim.InRange b
  | .base b => t.prim.InRange b

end BSQ
