import Verif.Model.Basic
/-!
# Machine integers  (src/num_traits.rs:75-202)

A machine integer value is an `Int`; every operation that can leave the type's range goes through `fit`,
which models the three overflow behaviours of the supported integer types.
-/
namespace BSQ

/-- A primitive integer type: `u8 … u128, usize, i8 … i128, isize` (num_traits.rs:133).
`usize`/`isize` are `bits := 64` (or 32) depending on the platform. -/
structure IntTy where
  bits : Nat
  signed : Bool
  deriving DecidableEq, Repr

namespace IntTy
/-- `<$ty>::MIN` -/
def lo (t : IntTy) : Int := if t.signed then -(2 ^ (t.bits - 1) : Int) else 0
/-- `<$ty>::MAX` -/
def hi (t : IntTy) : Int := if t.signed then (2 ^ (t.bits - 1) : Int) - 1 else (2 ^ t.bits : Int) - 1
/-- two's complement wrap-around, i.e. the Rust `as` cast between integer types -/
def wrap (t : IntTy) (x : Int) : Int :=
  if t.signed then Int.bmod x (2 ^ t.bits) else x % (2 ^ t.bits : Int)
/-- representable values -/
def InRange (t : IntTy) (x : Int) : Prop := t.lo ≤ x ∧ x ≤ t.hi
instance (t : IntTy) (x : Int) : Decidable (t.InRange x) := inferInstanceAs (Decidable (_ ∧ _))

def u8 : IntTy := ⟨8, false⟩
def u16 : IntTy := ⟨16, false⟩
def u32 : IntTy := ⟨32, false⟩
def u64 : IntTy := ⟨64, false⟩
def u128 : IntTy := ⟨128, false⟩
def i8 : IntTy := ⟨8, true⟩
def i16 : IntTy := ⟨16, true⟩
def i32 : IntTy := ⟨32, true⟩
def i64 : IntTy := ⟨64, true⟩
def i128 : IntTy := ⟨128, true⟩
end IntTy

/-- Which of the three families of `Int` implementors (num_traits.rs:133, 173-202). -/
inductive Kind where
  | prim
  | wrapping
  | saturating
  deriving DecidableEq, Repr

/-- Overflow checks on (`debug`) or off (`release`) for primitive integers. -/
inductive Build where
  | debug
  | release
  deriving DecidableEq, Repr

/-- An implementor of trait `Int` together with the build profile. -/
structure NumTy where
  prim : IntTy
  kind : Kind
  build : Build
  deriving DecidableEq, Repr

/-- What an out-of-range result turns into. -/
inductive Ovf where
  | panic
  | wrap
  | sat
  deriving DecidableEq, Repr

namespace NumTy
/-- overflow behaviour of `+`, `-`, `*`, `+=`, `*=` on the type -/
def ovf (t : NumTy) : Ovf :=
  match t.kind, t.build with
  | .prim, .debug => .panic
  | .prim, .release => .wrap
  | .wrapping, _ => .wrap
  | .saturating, _ => .sat

/-- the associated `type PrimInt` (num_traits.rs:116, 156) -/
def primInt (t : NumTy) : NumTy := { t with kind := .prim }

/-- bring an exact result into the type -/
def fit (t : NumTy) (x : Int) : Res Int :=
  if t.prim.InRange x then .ok x
  else match t.ovf with
    | .panic => .error .panic
    | .wrap => .ok (t.prim.wrap x)
    | .sat => .ok (if x < t.prim.lo then t.prim.lo else t.prim.hi)

/-- `Add`/`AddAssign` -/
def add (t : NumTy) (a b : Int) : Res Int := t.fit (a + b)
/-- `Sub` -/
def sub (t : NumTy) (a b : Int) : Res Int := t.fit (a - b)
/-- `Mul`/`MulAssign` -/
def mul (t : NumTy) (a b : Int) : Res Int := t.fit (a * b)
/-- truncating division of primitive integers (the only ones the code divides, inside `num_rational`): dividing
by zero and `MIN / -1` panic in every build -/
def div (t : NumTy) (a b : Int) : Res Int :=
  if b = 0 then .error .panic else if t.prim.InRange (a.tdiv b) then .ok (a.tdiv b) else .error .panic
/-- remainder of primitive integers: `x % 0` and `MIN % -1` panic in every build -/
def rem (t : NumTy) (a b : Int) : Res Int :=
  if b = 0 then .error .panic else if t.prim.InRange (a.tdiv b) then .ok (a.tmod b) else .error .panic

/-- const `MIN_VALUE` (num_traits.rs:101, 141) -/
def minValue (t : NumTy) : Int := t.prim.lo
/-- const `MAX_VALUE` (num_traits.rs:102, 142) -/
def maxValue (t : NumTy) : Int := t.prim.hi

/-- `Int::from_i64` (num_traits.rs:104-106, 144-146):
`value.clamp(Self::MIN as i64, Self::MAX as i64) as Self`.
`i64::clamp` panics when its lower bound exceeds its upper bound. -/
def fromI64 (t : NumTy) (value : Int) : Res Int :=
  let lo := IntTy.i64.wrap t.prim.lo
  let hi := IntTy.i64.wrap t.prim.hi
  if hi < lo then .error .panic
  else
    let c := if value < lo then lo else if hi < value then hi else value
    .ok (t.prim.wrap c)

/-- `Int::min` = `Ord::min` (num_traits.rs:108-110, 148-150) -/
def min (_t : NumTy) (a b : Int) : Int := if b < a then b else a
/-- `Int::max` = `Ord::max` (num_traits.rs:112-114, 152-154) -/
def max (_t : NumTy) (a b : Int) : Int := if b < a then a else b
end NumTy

end BSQ
