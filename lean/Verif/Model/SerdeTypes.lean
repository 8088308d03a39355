import Verif.Model.Serde
import Verif.Model.Plugin
import Verif.Model.Types.Int
import Verif.Model.Types.Float
import Verif.Model.Types.Misc
/-!
# `Serialize`/`Deserialize` of the crate's types

Almost all are derived; what `serde_derive` generates is modelled by `serStruct`/`deStruct` and the functions
for enums below.  `Fraction` is `#[serde(transparent)]` around `num_rational::Ratio`, whose impls write the
pair of numerator and denominator and refuse a zero denominator, without reducing (external crate).
Integers and floats are read as serde's impls for primitives do: an integer out of range is refused, a float
is rounded to the type, an integer is accepted where a float is expected.
-/
namespace BSQ

/-- a pair of impls -/
structure Codec (α : Type) where
  ser : α → Data
  de : Data → Option α

namespace Codec

/-- primitive integers; `Wrapping<T>` and `Saturating<T>` are written as the integer they hold -/
def int (t : IntTy) : Codec Int where
  ser x := .int x
  de d := match d with
    | .int i => if t.InRange i then some i else none
    | _ => none

def bool : Codec Bool where
  ser x := .bool x
  de d := match d with
    | .bool b => some b
    | _ => none

/-- `f32`, `f64` -/
def float (g : Fmt) : Codec Fl where
  ser x := .float x
  de d := match d with
    | .float (.fin q) => some (g.rnd q)
    | .float x => some x
    | .int i => some (g.rnd i)
    | _ => none

/-- integer flag sets of `n` bits -/
def bits (n : Nat) : Codec (BitVec n) where
  ser x := .int x.toNat
  de d := match d with
    | .int i => if 0 ≤ i ∧ i < 2 ^ n then some (BitVec.ofInt n i) else none
    | _ => none

/-- strings, such as `Box<str>` -/
def string : Codec String where
  ser x := .str x
  de d := match d with
    | .str s => some s
    | _ => none

/-- `Unsupported` (operations.rs:41-42), an enum without variants -/
def unsupported : Codec Empty where
  ser x := x.elim
  de _ := none

/-- `PhantomData`, a unit struct -/
def phantom : Codec Unit where
  ser _ := .unit
  de d := match d with
    | .unit => some ()
    | _ => none

variable (f : Format)

/-- `Fraction<I>` (num_traits.rs:286-291) -/
def frac (t : IntTy) : Codec Frac where
  ser x := .seq [(int t).ser x.num, (int t).ser x.den]
  de d := match d with
    | .seq l =>
      match deTuple f 2 l with
      | some [a, b] => do
        let n ← (int t).de a
        let m ← (int t).de b
        if m = 0 then none else some ⟨n, m⟩
      | _ => none
    | _ => none

/-- `StatInt` (types/int_ratio.rs:13) -/
def statInt (t : IntTy) : Codec StatInt where
  ser x := serStruct f ["addend", "min", "max", "mult"]
    [(int t).ser x.addend, (int t).ser x.min, (int t).ser x.max, (int t).ser x.mult]
  de d := match deStruct f ["addend", "min", "max", "mult"] d with
    | some [a, b, c, d] => do
      some ⟨← (int t).de a, ← (int t).de b, ← (int t).de c, ← (int t).de d⟩
    | _ => none

/-- `StatIntFraction` (types/int_ratio.rs:81-83) -/
def statIntFraction (t : IntTy) : Codec StatIntFraction where
  ser x := serStruct f ["addend", "min", "max", "mult", "rounding"]
    [(int t).ser x.addend, (int t).ser x.min, (int t).ser x.max, (frac f t).ser x.mult, phantom.ser ()]
  de d := match deStruct f ["addend", "min", "max", "mult", "rounding"] d with
    | some [a, b, c, d, e] => do
      let v : StatIntFraction := ⟨← (int t).de a, ← (int t).de b, ← (int t).de c, ← (frac f t).de d⟩
      let () ← phantom.de e
      some v
    | _ => none

/-- `StatIntFloatMul` (types/int_ratio.rs:158) -/
def statIntFloatMul {F : Type} (t : IntTy) (k : Codec F) : Codec (StatIntFloatMul F) where
  ser x := serStruct f ["addend", "min", "max", "mult", "rounding"]
    [(int t).ser x.addend, (int t).ser x.min, (int t).ser x.max, k.ser x.mult, phantom.ser ()]
  de d := match deStruct f ["addend", "min", "max", "mult", "rounding"] d with
    | some [a, b, c, d, e] => do
      let v : StatIntFloatMul F := ⟨← (int t).de a, ← (int t).de b, ← (int t).de c, ← k.de d⟩
      let () ← phantom.de e
      some v
    | _ => none

/-- `StatIntPercentAdditive` (types/int_pct.rs:13) -/
def statIntPercentAdditive (t : IntTy) : Codec StatIntPercentAdditive where
  ser x := serStruct f ["addend", "mult", "min", "max", "rounding"]
    [(int t).ser x.addend, (int t).ser x.mult, (int t).ser x.min, (int t).ser x.max, phantom.ser ()]
  de d := match deStruct f ["addend", "mult", "min", "max", "rounding"] d with
    | some [a, b, c, d, e] => do
      let v : StatIntPercentAdditive := ⟨← (int t).de a, ← (int t).de b, ← (int t).de c, ← (int t).de d⟩
      let () ← phantom.de e
      some v
    | _ => none

/-- `StatIntPercent` (types/int_pct.rs:89-91) -/
def statIntPercent (t : IntTy) : Codec StatIntPercent where
  ser x := serStruct f ["addend", "mult", "min", "max", "rounding"]
    [(int t).ser x.addend, (frac f t).ser x.mult, (int t).ser x.min, (int t).ser x.max, phantom.ser ()]
  de d := match deStruct f ["addend", "mult", "min", "max", "rounding"] d with
    | some [a, b, c, d, e] => do
      let v : StatIntPercent := ⟨← (int t).de a, ← (frac f t).de b, ← (int t).de c, ← (int t).de d⟩
      let () ← phantom.de e
      some v
    | _ => none

/-- `StatFloat` (types/float.rs:7) -/
def statFloat {F : Type} (k : Codec F) : Codec (StatFloat F) where
  ser x := serStruct f ["addend", "min", "max", "mult"]
    [k.ser x.addend, k.ser x.min, k.ser x.max, k.ser x.mult]
  de d := match deStruct f ["addend", "min", "max", "mult"] d with
    | some [a, b, c, d] => do some ⟨← k.de a, ← k.de b, ← k.de c, ← k.de d⟩
    | _ => none

/-- `StatFloatAdditive` (types/float.rs:75) -/
def statFloatAdditive {F : Type} (k : Codec F) : Codec (StatFloatAdditive F) where
  ser x := serStruct f ["addend", "min", "max", "mult"]
    [k.ser x.addend, k.ser x.min, k.ser x.max, k.ser x.mult]
  de d := match deStruct f ["addend", "min", "max", "mult"] d with
    | some [a, b, c, d] => do some ⟨← k.de a, ← k.de b, ← k.de c, ← k.de d⟩
    | _ => none

/-- `StatMult` (types/float.rs:145) -/
def statMult {F : Type} (k : Codec F) : Codec (StatMult F) where
  ser x := serStruct f ["min", "max", "mult"] [k.ser x.min, k.ser x.max, k.ser x.mult]
  de d := match deStruct f ["min", "max", "mult"] d with
    | some [a, b, c] => do some ⟨← k.de a, ← k.de b, ← k.de c⟩
    | _ => none

/-- `StatFlags` (types/flags.rs:10) -/
def statFlags {T : Type} (k : Codec T) : Codec (StatFlags T) where
  ser x := serStruct f ["not", "or"] [k.ser x.not, k.ser x.or]
  de d := match deStruct f ["not", "or"] d with
    | some [a, b] => do some ⟨← k.de a, ← k.de b⟩
    | _ => none

/-- `StatExists` (types/singleton.rs:9-11), a newtype struct: formats write the content -/
def statExists : Codec StatExists where
  ser x := bool.ser x.val
  de d := (bool.de d).map (⟨·⟩)

/-- how a derived enum writes the variant of a number -/
def tag (names : List String) (i : Nat) : String ⊕ Nat :=
  if f.named then .inl (names.getD i "") else .inr i

/-- how a derived enum recognises a variant -/
def untag (names : List String) : String ⊕ Nat → Option Nat
  | .inl s => names.findIdx? (· == s)
  | .inr i => if i < names.length then some i else none

/-- `StatOnce` (types/singleton.rs:41-48) -/
def statOnce {T : Type} (k : Codec T) : Codec (StatOnce T) where
  ser x := match x with
    | .notFound => .unitVariant (tag f ["NotFound", "Found", "FoundMultiple"] 0)
    | .found x => .newtypeVariant (tag f ["NotFound", "Found", "FoundMultiple"] 1) (k.ser x)
    | .foundMultiple => .unitVariant (tag f ["NotFound", "Found", "FoundMultiple"] 2)
  de d := match d with
    | .unitVariant g =>
      match untag ["NotFound", "Found", "FoundMultiple"] g with
      | some 0 => some .notFound
      | some 2 => some .foundMultiple
      | _ => none
    | .newtypeVariant g d =>
      match untag ["NotFound", "Found", "FoundMultiple"] g with
      | some 1 => (k.de d).map .found
      | _ => none
    | _ => none

/-- `Prioritized` (types/prioritized.rs:10-15); the priority is an `i32` -/
def prioritized {T : Type} (k : Codec T) : Codec (Prioritized T) where
  ser x := serStruct f ["value", "priority"] [k.ser x.value, (int .i32).ser x.priority]
  de d := match deStruct f ["value", "priority"] d with
    | some [a, b] => do some ⟨← k.de a, ← (int .i32).de b⟩
    | _ => none

/-- `Qualifier` (qualifier.rs:78-84) -/
def qualifier {Q : Type} (k : Codec Q) : Codec (Qualifier Q) where
  ser x := serStruct f ["any_of", "all_of"] [k.ser x.anyOf, k.ser x.allOf]
  de d := match deStruct f ["any_of", "all_of"] d with
    | some [a, b] => do some ⟨← k.de a, ← k.de b⟩
    | _ => none

/-- codecs of the operand types of a value type -/
structure Operands {V : Type} (D : StatValue V) where
  add : Codec D.AddT
  mul : Codec D.MulT
  bit : Codec D.BitT
  bounds : Codec D.BoundsT
  base : Codec D.BaseT

/-- variants of `StatOperation` (operations.rs:6-14) -/
def opNames : List String := ["Add", "Mul", "Or", "Not", "Min", "Max", "Base"]

/-- `StatOperation` (operations.rs:5-14) -/
def statOp {V : Type} {D : StatValue V} (k : Operands D) : Codec (StatOp D) where
  ser x := match x with
    | .add x => .newtypeVariant (tag f opNames 0) (k.add.ser x)
    | .mul x => .newtypeVariant (tag f opNames 1) (k.mul.ser x)
    | .or x => .newtypeVariant (tag f opNames 2) (k.bit.ser x)
    | .not x => .newtypeVariant (tag f opNames 3) (k.bit.ser x)
    | .min x => .newtypeVariant (tag f opNames 4) (k.bounds.ser x)
    | .max x => .newtypeVariant (tag f opNames 5) (k.bounds.ser x)
    | .base x => .newtypeVariant (tag f opNames 6) (k.base.ser x)
  de d := match d with
    | .newtypeVariant g d =>
      match untag opNames g with
      | some 0 => (k.add.de d).map .add
      | some 1 => (k.mul.de d).map .mul
      | some 2 => (k.bit.de d).map .or
      | some 3 => (k.bit.de d).map .not
      | some 4 => (k.bounds.de d).map .min
      | some 5 => (k.bounds.de d).map .max
      | some 6 => (k.base.de d).map .base
      | _ => none
    | _ => none

/-- `StatCache` (cache.rs:22-27): its only field is `#[serde(skip)]`, so nothing is written and the field is
filled with its default -/
def statCache (E : Env) (Q Ent : Type) : Codec (Cache E Q Ent) where
  ser _ := serStruct f [] []
  de d := (deStruct f [] d).map (fun _ => [])

end Codec
end BSQ
