import Verif.Spec.Bounds
import Verif.Spec.Numeric
import Verif.Spec.DefaultsExact
import Verif.Spec.MapQuery
/-!
# What registered bounds promise, for every numeric stat type
-/
namespace BSQ
variable {E : Env}

/-- `v` is the last default registered for a stat in a history, and `bs` are the bounds registered for it since,
in order -/
inductive Registered (s : StatInst E) : List (DefOp E) → s.Val → List (StatOp s.sv) → Prop
  | default (os : List (DefOp E)) (v : s.Val) : Registered s (os ++ [.default s v]) v []
  | min {os : List (DefOp E)} {v : s.Val} {bs : List (StatOp s.sv)} (h : Registered s os v bs) (b : s.sv.BoundsT) :
      Registered s (os ++ [.min s b]) v (bs ++ [.min b])
  | max {os : List (DefOp E)} {v : s.Val} {bs : List (StatOp s.sv)} (h : Registered s os v bs) (b : s.sv.BoundsT) :
      Registered s (os ++ [.max s b]) v (bs ++ [.max b])
  | other {os : List (DefOp E)} {v : s.Val} {bs : List (StatOp s.sv)} (h : Registered s os v bs) (o : DefOp E)
      (ho : o.stat ≠ s) : Registered s (os ++ [o]) v bs

/-- The numeric stat types of the crate: the integer types over any integer (and multiplier) type, and the float types
over fractions (of numbers that check overflow) and over floats of any format. -/
inductive NumericType : Type 1
  | int (t : NumTy)
  | intFraction (t : NumTy) (R : Rounding)
  | intFloatMul (F : Type) (t : NumTy) (O : FloatOps F) (toF : Int → F) (ofF : F → Int) (R : Rounding)
  | intPercentAdditive (t : NumTy) (R : Rounding) (S : Int)
  | intPercent (t : NumTy) (R : Rounding) (S : Int)
  | fraction (t : NumTy) (h : t.ovf = .panic) (hb : 1 < t.prim.bits)
  | fractionAdditive (t : NumTy) (h : t.ovf = .panic) (hb : 1 < t.prim.bits)
  | fractionMult (t : NumTy) (h : t.ovf = .panic) (hb : 1 < t.prim.bits)
  | float (f : Fmt)
  | floatAdditive (f : Fmt)
  | floatMult (f : Fmt)

/-- The value type and its operations, and how to compare its bounds and results: which operations are meant (`ok`), the
order they are read in (`none`: not a number), and the least value of the type. -/
structure Reading (X : (V : Type) × StatValue V) where
  ok : StatOp X.2 → Prop
  B : Type
  order : LinearOrder B
  bound : X.2.BoundsT → Option B
  out : X.2.Out → Option B
  lo : B

namespace NumericType
/-- the value type -/
def V : NumericType → (V : Type) × StatValue V
  | int t => ⟨_, statInt t⟩
  | intFraction t R => ⟨_, statIntFraction t R⟩
  | intFloatMul _ t O toF ofF R => ⟨_, statIntFloatMul t O toF ofF R⟩
  | intPercentAdditive t R S => ⟨_, statIntPercentAdditive t R S⟩
  | intPercent t R S => ⟨_, statIntPercent t R S⟩
  | fraction t _ _ => ⟨_, statFloat (Frac.ops t)⟩
  | fractionAdditive t _ _ => ⟨_, statFloatAdditive (Frac.ops t)⟩
  | fractionMult t _ _ => ⟨_, statMult (Frac.ops t)⟩
  | float f => ⟨_, statFloat (Fl.ops f)⟩
  | floatAdditive f => ⟨_, statFloatAdditive (Fl.ops f)⟩
  | floatMult f => ⟨_, statMult (Fl.ops f)⟩

/-- Integers are compared as integers, fractions (in lowest terms, of numbers of the type) as rational numbers, floats
as rational numbers and infinities. -/
noncomputable def reading : (k : NumericType) → Reading k.V
  | int t => ⟨fun _ => True, Int, inferInstance, fun (b : Int) => some b, fun (x : Int) => some x, t.prim.lo⟩
  | intFraction t _ => ⟨fun _ => True, Int, inferInstance, fun (b : Int) => some b, fun (x : Int) => some x, t.prim.lo⟩
  | intFloatMul _ t _ _ _ _ =>
    ⟨fun _ => True, Int, inferInstance, fun (b : Int) => some b, fun (x : Int) => some x, t.prim.lo⟩
  | intPercentAdditive t _ _ =>
    ⟨fun _ => True, Int, inferInstance, fun (b : Int) => some b, fun (x : Int) => some x, t.prim.lo⟩
  | intPercent t _ _ => ⟨fun _ => True, Int, inferInstance, fun (b : Int) => some b, fun (x : Int) => some x, t.prim.lo⟩
  | fraction t _ _ =>
    ⟨statFloat.okOp (t := t), ℚ, inferInstance, fun (b : Frac) => some b.toRat, fun (x : Frac) => some x.toRat, t.prim.lo⟩
  | fractionAdditive t _ _ =>
    ⟨statFloatAdditive.okOp (t := t), ℚ, inferInstance, fun (b : Frac) => some b.toRat, fun (x : Frac) => some x.toRat,
      t.prim.lo⟩
  | fractionMult t _ _ =>
    ⟨statMult.okOp (t := t), ℚ, inferInstance, fun (b : Frac) => some b.toRat, fun (x : Frac) => some x.toRat, t.prim.lo⟩
  | float f =>
    ⟨fun _ => True, WithBot (WithTop ℚ), inferInstance, Fl.ext, Fl.ext, (((-f.maxVal : ℚ) : WithTop ℚ) : WithBot (WithTop ℚ))⟩
  | floatAdditive f =>
    ⟨fun _ => True, WithBot (WithTop ℚ), inferInstance, Fl.ext, Fl.ext, (((-f.maxVal : ℚ) : WithTop ℚ) : WithBot (WithTop ℚ))⟩
  | floatMult f =>
    ⟨fun _ => True, WithBot (WithTop ℚ), inferInstance, Fl.ext, Fl.ext, (((-f.maxVal : ℚ) : WithTop ℚ) : WithBot (WithTop ℚ))⟩
end NumericType

/-- the reading of a stat whose value type is numeric -/
def Reading.at {X Y : (V : Type) × StatValue V} (h : X = Y) (K : Reading Y) : Reading X := h ▸ K

/-- A result respects the bounds among the operations: it is a number, at least every minimum, at most every maximum
that no minimum exceeds, and the greatest minimum when some minimum exceeds some maximum. -/
structure Reading.Respects {X : (V : Type) × StatValue V} (K : Reading X) (ops : List (StatOp X.2)) (x : X.2.Out) : Prop where
  number : ∃ o, K.out x = some o
  lower : ∀ o b y, K.out x = some o → StatOp.min b ∈ ops → K.bound b = some y → K.order.le y o
  upper : ∀ o b y, K.out x = some o → StatOp.max b ∈ ops → K.bound b = some y → K.order.le K.lo y →
    (∀ a z, StatOp.min a ∈ ops → K.bound a = some z → K.order.le z y) → K.order.le o y
  conflict : ∀ o a y b z, K.out x = some o → StatOp.min a ∈ ops → K.bound a = some y → StatOp.max b ∈ ops →
    K.bound b = some z → K.order.lt z y → K.order.le K.lo y →
    ∃ m, StatOp.min m ∈ ops ∧ K.bound m = some o

end BSQ
