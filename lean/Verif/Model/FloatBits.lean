import Verif.Model.Ieee
/-!
# `f32` and `f64` as bit patterns  (used by src/num_traits.rs:221-281)

The binary interchange formats of IEEE 754: a sign bit, `w` bits of exponent, `p - 1` bits of significand.  Here `0.0`
and `-0.0` are different, and there are many NaNs; `Model/Ieee.lean` has the values they denote.
-/
namespace BSQ

/-- a bit pattern -/
structure FBits (w p : ℕ) where
  neg : Bool
  exp : Fin (2 ^ w)
  man : Fin (2 ^ (p - 1))
  deriving DecidableEq

/-- `f32` -/
abbrev F32 := FBits 8 24
/-- `f64` -/
abbrev F64 := FBits 11 53

/-- the values of the format: subnormal numbers are multiples of `2 ^ emin`, all finite numbers are below `2 ^ emax` -/
def Fmt.ofBits (w p : ℕ) : Fmt := ⟨p, 3 - 2 ^ (w - 1) - p, 2 ^ (w - 1)⟩

namespace FBits
variable {w p : ℕ}

/-- all exponent bits set, significand not 0 -/
def IsNaN (b : FBits w p) : Prop := b.exp.val = 2 ^ w - 1 ∧ b.man.val ≠ 0
/-- all exponent bits set, significand 0 -/
def IsInf (b : FBits w p) : Prop := b.exp.val = 2 ^ w - 1 ∧ b.man.val = 0
def IsFin (b : FBits w p) : Prop := b.exp.val ≠ 2 ^ w - 1

instance (b : FBits w p) : Decidable b.IsNaN := inferInstanceAs (Decidable (_ ∧ _))
instance (b : FBits w p) : Decidable b.IsInf := inferInstanceAs (Decidable (_ ∧ _))
instance (b : FBits w p) : Decidable b.IsFin := inferInstanceAs (Decidable (_ ≠ _))

/-- the absolute value of a finite pattern: with exponent bits 0 the leading bit is 0, otherwise 1 -/
def mag (b : FBits w p) : ℚ :=
  if b.exp.val = 0 then b.man.val * 2 ^ (Fmt.ofBits w p).emin
  else (2 ^ (p - 1) + b.man.val) * 2 ^ ((b.exp.val : ℤ) - 1 + (Fmt.ofBits w p).emin)

/-- the number a finite pattern denotes -/
def val (b : FBits w p) : ℚ := if b.neg then -b.mag else b.mag

/-- what a pattern denotes -/
def denotes (b : FBits w p) : Fl :=
  if b.exp.val = 2 ^ w - 1 then
    if b.man.val = 0 then (if b.neg then .ninf else .pinf) else .nan
  else .fin b.val

end FBits

example : Fmt.ofBits 8 24 = .f32 := by decide
example : Fmt.ofBits 11 53 = .f64 := by decide +kernel

end BSQ
