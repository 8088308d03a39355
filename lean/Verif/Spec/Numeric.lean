import Verif.Spec.Unordered
import Verif.Model.Types.Int
import Verif.Model.Types.Float
import Verif.Spec.Rational
/-!
# How operations on the numeric stats read as contributions

`Add(a)` and a base value contribute an addend (a multiplier for `StatMult`, which has no addends),
`Mul(m)` a multiplier, `Min(b)` a lower bound and `Max(b)` an upper bound.
-/
namespace BSQ

def statInt.contrib {t : NumTy} : StatOp (statInt t) → Contrib Int Int Int
  | .add a => .add a
  | .mul m => .mul m
  | .min b => .atLeast b
  | .max b => .atMost b
  | .base b => .add b

def statIntFraction.contrib {t : NumTy} {R : Rounding} :
    StatOp (statIntFraction t R) → Contrib ℤ ℚ ℤ
  | .add a => .add a
  | .mul m => .mul m.toRat
  | .min b => .atLeast b
  | .max b => .atMost b
  | .base b => .add b

/-- multipliers are percentages in units of `1/S`; they add up -/
def statIntPercentAdditive.contrib {t : NumTy} {R : Rounding} {S : Int} :
    StatOp (statIntPercentAdditive t R S) → Contrib ℤ ℤ ℤ
  | .add a => .add a
  | .mul m => .mul m
  | .min b => .atLeast b
  | .max b => .atMost b
  | .base b => .add b

def statFloat.fracContrib {t : NumTy} : StatOp (statFloat (Frac.ops t)) → Contrib ℚ ℚ ℚ
  | .add a => .add a.toRat
  | .mul m => .mul m.toRat
  | .min b => .atLeast b.toRat
  | .max b => .atMost b.toRat
  | .base b => .add b.toRat

/-- multipliers are increments over one; they add up -/
def statFloatAdditive.fracContrib {t : NumTy} : StatOp (statFloatAdditive (Frac.ops t)) → Contrib ℚ ℚ ℚ
  | .add a => .add a.toRat
  | .mul m => .mul m.toRat
  | .min b => .atLeast b.toRat
  | .max b => .atMost b.toRat
  | .base b => .add b.toRat

def statMult.fracContrib {t : NumTy} : StatOp (statMult (Frac.ops t)) → Contrib ℚ ℚ ℚ
  | .mul m => .mul m.toRat
  | .min b => .atLeast b.toRat
  | .max b => .atMost b.toRat
  | .base b => .mul b.toRat

/-- An operand of the machine type: representable numbers, fractions in lowest terms with representable
parts (what `Fraction::new` yields). -/
def Frac.Valid (t : NumTy) (f : Frac) : Prop := f.WF ∧ t.prim.InRange f.num ∧ t.prim.InRange f.den

def statIntFraction.okOp {t : NumTy} {R : Rounding} : StatOp (statIntFraction t R) → Prop
  | .add a => t.prim.InRange a
  | .mul m => m.Valid t
  | .min b => t.prim.InRange b
  | .max b => t.prim.InRange b
  | .base b => t.prim.InRange b

def statFloat.okOp {t : NumTy} : StatOp (statFloat (Frac.ops t)) → Prop
  | .add a => a.Valid t
  | .mul m => m.Valid t
  | .min b => b.Valid t
  | .max b => b.Valid t
  | .base b => b.Valid t

def statFloatAdditive.okOp {t : NumTy} : StatOp (statFloatAdditive (Frac.ops t)) → Prop
  | .add a => a.Valid t
  | .mul m => m.Valid t
  | .min b => b.Valid t
  | .max b => b.Valid t
  | .base b => b.Valid t

def statMult.okOp {t : NumTy} : StatOp (statMult (Frac.ops t)) → Prop
  | .mul m => m.Valid t
  | .min b => b.Valid t
  | .max b => b.Valid t
  | .base b => b.Valid t

/-- the numbers carried by a contribution -/
def Contrib.num {A : Type} : Contrib A A A → A
  | .add a => a
  | .mul a => a
  | .atLeast a => a
  | .atMost a => a

end BSQ

namespace BSQ
/-- the sum of the absolute values of all addends -/
def Contrib.absTotal : List (Contrib Int Int Int) → Int
  | [] => 0
  | .add a :: l => a.natAbs + absTotal l
  | _ :: l => absTotal l

/-- the product of the absolute values of all multipliers, counting `0` as `1` -/
def Contrib.absProduct : List (Contrib Int Int Int) → Int
  | [] => 1
  | .mul m :: l => max 1 (m.natAbs : Int) * absProduct l
  | _ :: l => absProduct l

/-- a `StatInt` all of whose numbers are values of the machine type -/
structure StatInt.WF (t : NumTy) (v : StatInt) : Prop where
  addend : t.prim.InRange v.addend
  mult : t.prim.InRange v.mult
  min : t.prim.InRange v.min
  max : t.prim.InRange v.max

structure StatIntFraction.WF (t : NumTy) (v : StatIntFraction) : Prop where
  addend : t.prim.InRange v.addend
  mult : v.mult.Valid t
  min : t.prim.InRange v.min
  max : t.prim.InRange v.max

structure StatIntPercentAdditive.WF (t : NumTy) (v : StatIntPercentAdditive) : Prop where
  addend : t.prim.InRange v.addend
  mult : t.prim.InRange v.mult
  min : t.prim.InRange v.min
  max : t.prim.InRange v.max

structure StatFloat.WF (t : NumTy) (v : StatFloat Frac) : Prop where
  addend : v.addend.Valid t
  mult : v.mult.Valid t
  min : v.min.Valid t
  max : v.max.Valid t

structure StatFloatAdditive.WF (t : NumTy) (v : StatFloatAdditive Frac) : Prop where
  addend : v.addend.Valid t
  mult : v.mult.Valid t
  min : v.min.Valid t
  max : v.max.Valid t

structure StatMult.WF (t : NumTy) (v : StatMult Frac) : Prop where
  mult : v.mult.Valid t
  min : v.min.Valid t
  max : v.max.Valid t

end BSQ
