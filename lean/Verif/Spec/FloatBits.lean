import Verif.Model.FloatBits
import Verif.Model.Types.Float
import Verif.Model.Types.Int
import Verif.Spec.Unordered
/-!
# What IEEE 754 says about operations on bit patterns

Written down for patterns, without the values and operations of `Model/Ieee.lean`.
-/
namespace BSQ
namespace FBits
variable {w p : ℕ}

/-- where results become infinite: half way between the largest finite number and the power of two that follows -/
def limit (w p : ℕ) : ℚ := 2 ^ (2 ^ (w - 1)) - 2 ^ (2 ^ (w - 1)) / 2 ^ (p + 1)

/-- `c` is the exact result `q` rounded: a finite number to which none is nearer, and of two that are equally near the
one with an even last bit; or infinity, if `q` is beyond the limit -/
def RoundsTo (q : ℚ) (c : FBits w p) : Prop :=
  (|q| < limit w p ∧ c.IsFin ∧ ∀ x : FBits w p, x.IsFin → |q - c.val| ≤ |q - x.val| ∧
    (x.val ≠ c.val → |q - c.val| = |q - x.val| → c.man.val % 2 = 0)) ∨
  (limit w p ≤ |q| ∧ c.IsInf ∧ (c.neg = true ↔ q < 0))

/-- addition; the sum of two zeros, or of a number and its negative, is `-0.0` only for two negative zeros -/
structure Adds (a b c : FBits w p) : Prop where
  nan : a.IsNaN ∨ b.IsNaN → c.IsNaN
  inf_inf : a.IsInf → b.IsInf → if a.neg = b.neg then c.IsInf ∧ c.neg = a.neg else c.IsNaN
  inf_fin : a.IsInf → b.IsFin → c.IsInf ∧ c.neg = a.neg
  fin_inf : a.IsFin → b.IsInf → c.IsInf ∧ c.neg = b.neg
  fin_fin : a.IsFin → b.IsFin → RoundsTo (a.val + b.val) c
  sign : a.IsFin → b.IsFin → a.val + b.val = 0 → (c.neg = (a.neg && b.neg))

/-- multiplication; the sign is that of the product of the signs, for zeros too -/
structure Multiplies (a b c : FBits w p) : Prop where
  nan : a.IsNaN ∨ b.IsNaN → c.IsNaN
  inf_zero : a.IsInf → b.IsFin → b.val = 0 → c.IsNaN
  zero_inf : a.IsFin → a.val = 0 → b.IsInf → c.IsNaN
  inf_inf : a.IsInf → b.IsInf → c.IsInf
  inf_fin : a.IsInf → b.IsFin → b.val ≠ 0 → c.IsInf
  fin_inf : a.IsFin → a.val ≠ 0 → b.IsInf → c.IsInf
  fin_fin : a.IsFin → b.IsFin → RoundsTo (a.val * b.val) c
  sign : ¬ c.IsNaN → c.neg = (a.neg ^^ b.neg)

/-- `a < b`; false for NaN, and zeros of any sign are equal -/
def Less (a b : FBits w p) : Prop :=
  (a.IsFin ∧ b.IsFin ∧ a.val < b.val) ∨ (a.IsFin ∧ b.IsInf ∧ b.neg = false) ∨ (a.IsInf ∧ a.neg = true ∧ b.IsFin) ∨
  (a.IsInf ∧ a.neg = true ∧ b.IsInf ∧ b.neg = false)

/-- one of the operands, the greater one if they differ; a NaN is ignored.  Which of two zeros is returned is left
open. -/
structure Maximum (a b c : FBits w p) : Prop where
  nan : a.IsNaN → b.IsNaN → c.IsNaN
  left : a.IsNaN → ¬ b.IsNaN → c = b
  right : ¬ a.IsNaN → b.IsNaN → c = a
  one : ¬ a.IsNaN → ¬ b.IsNaN → (c = a ∨ c = b) ∧ ¬ Less c a ∧ ¬ Less c b

/-- one of the operands, the smaller one if they differ; a NaN is ignored -/
structure Minimum (a b c : FBits w p) : Prop where
  nan : a.IsNaN → b.IsNaN → c.IsNaN
  left : a.IsNaN → ¬ b.IsNaN → c = b
  right : ¬ a.IsNaN → b.IsNaN → c = a
  one : ¬ a.IsNaN → ¬ b.IsNaN → (c = a ∨ c = b) ∧ ¬ Less a c ∧ ¬ Less b c

/-- rounding to the integers -/
structure Integral (g : ℚ → ℤ) (a c : FBits w p) : Prop where
  nan : a.IsNaN → c.IsNaN
  inf : a.IsInf → c = a
  fin : a.IsFin → c.IsFin ∧ c.val = g a.val

end FBits

open FBits in
/-- operations on patterns as IEEE 754 has them -/
structure IeeeOps {w p : ℕ} (O : FloatOps (FBits w p)) : Prop where
  zero : O.zero.neg = false ∧ O.zero.IsFin ∧ O.zero.val = 0
  one : O.one.IsFin ∧ O.one.val = 1
  /-- the finite patterns with all other bits set -/
  maxValue : O.maxValue.neg = false ∧ O.maxValue.exp.val = 2 ^ w - 2 ∧ O.maxValue.man.val = 2 ^ (p - 1) - 1
  minValue : O.minValue.neg = true ∧ O.minValue.exp.val = 2 ^ w - 2 ∧ O.minValue.man.val = 2 ^ (p - 1) - 1
  add : ∀ a b, ∃ c, O.add a b = .ok c ∧ Adds a b c
  sub : ∀ a b, ∃ c, O.sub a b = .ok c ∧ Adds a { b with neg := !b.neg } c
  mul : ∀ a b, ∃ c, O.mul a b = .ok c ∧ Multiplies a b c
  min : ∀ a b, Minimum a b (O.min a b)
  max : ∀ a b, Maximum a b (O.max a b)
  floor : ∀ a, ∃ c, O.floor a = .ok c ∧ Integral (⌊·⌋) a c
  ceil : ∀ a, ∃ c, O.ceil a = .ok c ∧ Integral (⌈·⌉) a c
  /-- towards zero -/
  trunc : ∀ a, ∃ c, O.trunc a = .ok c ∧ Integral (fun q => if q < 0 then ⌈q⌉ else ⌊q⌋) a c
  /-- half way cases away from zero -/
  round : ∀ a, ∃ c, O.round a = .ok c ∧
    Integral (fun q => if q < 0 then ⌈q - 1 / 2⌉ else ⌊q + 1 / 2⌋) a c
  lt : ∀ a b, O.lt a b = true ↔ Less a b

open FBits in
/-- the casts `int as float` (to the nearest) and `float as int` (towards zero, within the range, NaN to 0) -/
structure IeeeCasts {w p : ℕ} (t : IntTy) (toF : Int → FBits w p) (ofF : FBits w p → Int) : Prop where
  toF : ∀ z : Int, RoundsTo (z : ℚ) (toF z)
  nan : ∀ a, a.IsNaN → ofF a = 0
  inf : ∀ a, a.IsInf → ofF a = if a.neg then t.lo else t.hi
  fin : ∀ a, a.IsFin → ofF a = max (min (if a.val < 0 then ⌈a.val⌉ else ⌊a.val⌋) t.hi) t.lo

/-! What values, operations and assemblies over one type of numbers become when the numbers are replaced. -/
section
variable {F G : Type} (φ : F → G)

def StatFloat.replace (a : StatFloat F) : StatFloat G := ⟨φ a.addend, φ a.min, φ a.max, φ a.mult⟩
def StatFloatAdditive.replace (a : StatFloatAdditive F) : StatFloatAdditive G := ⟨φ a.addend, φ a.min, φ a.max, φ a.mult⟩
def StatMult.replace (a : StatMult F) : StatMult G := ⟨φ a.min, φ a.max, φ a.mult⟩
def StatIntFloatMul.replace (a : StatIntFloatMul F) : StatIntFloatMul G := ⟨a.addend, a.min, a.max, φ a.mult⟩

def statFloat.replaceOp {O : FloatOps F} {O' : FloatOps G} : StatOp (statFloat O) → StatOp (statFloat O')
  | .add x => .add (φ x)
  | .mul x => .mul (φ x)
  | .min x => .min (φ x)
  | .max x => .max (φ x)
  | .base x => .base (φ x)

def statFloatAdditive.replaceOp {O : FloatOps F} {O' : FloatOps G} :
    StatOp (statFloatAdditive O) → StatOp (statFloatAdditive O')
  | .add x => .add (φ x)
  | .mul x => .mul (φ x)
  | .min x => .min (φ x)
  | .max x => .max (φ x)
  | .base x => .base (φ x)

def statMult.replaceOp {O : FloatOps F} {O' : FloatOps G} : StatOp (statMult O) → StatOp (statMult O')
  | .mul x => .mul (φ x)
  | .min x => .min (φ x)
  | .max x => .max (φ x)
  | .base x => .base (φ x)

def statIntFloatMul.replaceOp {t : NumTy} {O : FloatOps F} {O' : FloatOps G} {toF : Int → F} {ofF : F → Int}
    {toF' : Int → G} {ofF' : G → Int} {R : Rounding} :
    StatOp (statIntFloatMul t O toF ofF R) → StatOp (statIntFloatMul t O' toF' ofF' R)
  | .add x => .add x
  | .mul x => .mul (φ x)
  | .min x => .min x
  | .max x => .max x
  | .base x => .base x

/-- an assembly of values with every operation replaced -/
def Tree.replace {V V' : Type} {D : StatValue V} {D' : StatValue V'} (op : StatOp D → StatOp D')
    (base : D.BaseT → D'.BaseT) : Tree D → Tree D'
  | .dflt => .dflt
  | .base b => .base (base b)
  | .op t o => .op (t.replace op base) (op o)
  | .join l r => .join (l.replace op base) (r.replace op base)
end

end BSQ
