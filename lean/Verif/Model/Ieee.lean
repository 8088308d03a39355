import Verif.Model.Rounding
import Mathlib.Data.Int.Log
import Mathlib.Data.Rat.Floor
import Mathlib.Algebra.Order.Field.Rat
/-!
# `f32` and `f64`  (src/num_traits.rs:221-281)

IEEE-754 binary floating point with round-to-nearest-even.  A finite value is the exact rational it denotes;
every arithmetic result is the exact result rounded to the format (this covers overflow to infinity and
gradual underflow).  Simplifications: `0.0` and `-0.0` are identified, and there is a single NaN.
Neither can be told apart by any comparison the crate makes, nor by `==` on results; C121 (`Props/FloatBits.lean`)
proves that bit patterns with these distinctions behave as the values here.
-/
namespace BSQ

/-- A binary format: `p` significand bits, least positive value `2^emin`, finite values below `2^emax`. -/
structure Fmt where
  p : ℕ
  emin : ℤ
  emax : ℕ
  deriving DecidableEq, Repr

def Fmt.f32 : Fmt := ⟨24, -149, 128⟩
def Fmt.f64 : Fmt := ⟨53, -1074, 1024⟩

/-- a floating point value -/
inductive Fl where
  | nan
  | ninf
  | pinf
  | fin (q : ℚ)
  deriving DecidableEq

/-- nearest integer, ties to even -/
def rne (x : ℚ) : ℤ :=
  let r := x - ⌊x⌋
  if r < 1 / 2 then ⌊x⌋
  else if 1 / 2 < r then ⌊x⌋ + 1
  else if ⌊x⌋ % 2 = 0 then ⌊x⌋ else ⌊x⌋ + 1

namespace Fmt
variable (f : Fmt)

/-- exponent of the spacing of floats around `q` -/
def ulpExp (q : ℚ) : ℤ := max (Int.log 2 |q| + 1 - f.p) f.emin

/-- round an exact result to the format -/
def rnd (q : ℚ) : Fl :=
  if q = 0 then .fin 0
  else
    let r : ℚ := rne (q / 2 ^ f.ulpExp q) * 2 ^ f.ulpExp q
    if 2 ^ f.emax ≤ r then .pinf
    else if r ≤ -(2 ^ f.emax) then .ninf
    else .fin r

/-- `f32::MAX`, `f64::MAX` -/
def maxVal : ℚ := 2 ^ f.emax - 2 ^ f.emax / 2 ^ f.p
end Fmt

namespace Fl

/-- `f32::min`: a NaN argument is ignored -/
def min : Fl → Fl → Fl
  | .nan, b => b
  | a, .nan => a
  | .ninf, _ => .ninf
  | _, .ninf => .ninf
  | .pinf, b => b
  | a, .pinf => a
  | .fin a, .fin b => .fin (if b < a then b else a)

/-- `f32::max`: a NaN argument is ignored -/
def max : Fl → Fl → Fl
  | .nan, b => b
  | a, .nan => a
  | .pinf, _ => .pinf
  | _, .pinf => .pinf
  | .ninf, b => b
  | a, .ninf => a
  | .fin a, .fin b => .fin (if b < a then a else b)

def neg : Fl → Fl
  | .nan => .nan
  | .ninf => .pinf
  | .pinf => .ninf
  | .fin q => .fin (-q)

/-- IEEE addition -/
def add (f : Fmt) : Fl → Fl → Fl
  | .nan, _ => .nan
  | _, .nan => .nan
  | .pinf, .ninf => .nan
  | .ninf, .pinf => .nan
  | .pinf, _ => .pinf
  | _, .pinf => .pinf
  | .ninf, _ => .ninf
  | _, .ninf => .ninf
  | .fin a, .fin b => f.rnd (a + b)

/-- infinity times `b`, with `s` the sign of the infinity -/
def infMul (s : Bool) : Fl → Fl
  | .nan => .nan
  | .pinf => if s then .pinf else .ninf
  | .ninf => if s then .ninf else .pinf
  | .fin q => if q = 0 then .nan else if (0 < q) = s then .pinf else .ninf

/-- IEEE multiplication -/
def mul (f : Fmt) : Fl → Fl → Fl
  | .nan, _ => .nan
  | .pinf, b => infMul true b
  | .ninf, b => infMul false b
  | .fin a, .fin b => f.rnd (a * b)
  | .fin _, .nan => .nan
  | .fin a, .pinf => infMul true (.fin a)
  | .fin a, .ninf => infMul false (.fin a)

/-- apply an integer rounding to the finite values; its result is again a float of the format -/
def mapInt (g : ℚ → ℤ) : Fl → Fl
  | .fin q => .fin (g q)
  | x => x

/-- truncation of a rational toward zero -/
def truncQ (q : ℚ) : ℤ := if 0 ≤ q then ⌊q⌋ else ⌈q⌉
/-- `f32::round`: half away from zero -/
def roundQ (q : ℚ) : ℤ := if 0 ≤ q then ⌊q + 1 / 2⌋ else ⌈q - 1 / 2⌉

/-- `PartialOrd::lt`: false when an operand is NaN -/
def lt : Fl → Fl → Bool
  | .nan, _ => false
  | _, .nan => false
  | .pinf, _ => false
  | .ninf, b => b ≠ .ninf
  | .fin _, .pinf => true
  | .fin _, .ninf => false
  | .fin a, .fin b => decide (a < b)

/-- `impl Float for f32`/`f64` (num_traits.rs:221-281); float arithmetic never panics -/
abbrev ops (f : Fmt) : FloatOps Fl where
  zero := .fin 0
  one := .fin 1
  minValue := .fin (-f.maxVal)
  maxValue := .fin f.maxVal
  add a b := .ok (add f a b)
  sub a b := .ok (add f a (neg b))
  mul a b := .ok (mul f a b)
  min := min
  max := max
  floor a := .ok (mapInt (⌊·⌋) a)
  ceil a := .ok (mapInt (⌈·⌉) a)
  trunc a := .ok (mapInt truncQ a)
  round a := .ok (mapInt roundQ a)
  lt := lt

/-- the cast `int as f32` (num-traits `AsPrimitive`, used at int_ratio.rs:198) -/
def ofInt (f : Fmt) (x : ℤ) : Fl := f.rnd x

/-- the saturating cast `float as int` (`AsPrimitive`, int_ratio.rs:199): NaN becomes 0 -/
def toInt (t : IntTy) : Fl → ℤ
  | .nan => 0
  | .ninf => t.lo
  | .pinf => t.hi
  | .fin q => Max.max (Min.min (truncQ q) t.hi) t.lo

end Fl
end BSQ
