import Verif.Model.Float
/-!
# More of `Fraction`: division, remainder, arithmetic with integers, comparison  (src/num_traits.rs:283-371)

The algorithms are those of `num_rational` 0.4 and `num_integer` (external crates), as in `Verif.Model.Float`.
-/
namespace BSQ

/-- `Integer::div_mod_floor` of primitive integers (`num_integer`): quotient rounded down and its remainder -/
def NumTy.divModFloor (t : NumTy) (x y : Int) : Res (Int × Int) := do
  let d ← t.div x y
  let r ← t.rem x y
  if (0 < r ∧ y < 0) ∨ (r < 0 ∧ 0 < y) then do
    let d' ← t.sub d 1
    let r' ← t.add r y
    .ok (d', r')
  else .ok (d, r)

namespace Frac
variable (t : NumTy)

/-- `Div`/`DivAssign` for `Ratio` (through num_traits.rs:356) -/
def div (a b : Frac) : Res Frac := do
  let gac ← gcd t a.num b.num
  let gbd ← gcd t a.den b.den
  let n1 ← t.div a.num gac
  let n2 ← t.div b.den gbd
  let n ← t.mul n1 n2
  let d1 ← t.div a.den gbd
  let d2 ← t.div b.num gac
  let d ← t.mul d1 d2
  reduce t ⟨n, d⟩

/-- `Rem`/`RemAssign` for `Ratio` (through num_traits.rs:357): the same pattern as addition -/
def rem (a b : Frac) : Res Frac := addSub t t.rem a b

/-- the operators implemented by `impl_ops!` (num_traits.rs:353-357) -/
inductive Op where
  | add
  | sub
  | mul
  | div
  | rem
  deriving DecidableEq, Repr

/-- an operator, or its assigning form, between fractions (num_traits.rs:323-335) -/
def apply : Op → Frac → Frac → Res Frac
  | .add => add t
  | .sub => sub t
  | .mul => mul t
  | .div => div t
  | .rem => rem t

/-- an operator, or its assigning form, with an integer on the right: the integer becomes `Ratio::new(rhs, ONE)`
(num_traits.rs:337-349) -/
def applyInt (o : Op) (a : Frac) (z : Int) : Res Frac := do
  let b ← new t z 1
  apply t o a b

/-- `Ord::cmp` of `Ratio`, by continued fractions; `fuel` bounds the recursion.  With equal denominators or
numerators it compares the other part. -/
def cmpFuel : Nat → Frac → Frac → Res Ordering
  | 0, _, _ => .error .fuel
  | fuel + 1, a, b =>
    if a.den = b.den then
      .ok (if a.den < 0 then (compare a.num b.num).swap else compare a.num b.num)
    else if a.num = b.num then
      if a.num = 0 then .ok .eq
      else .ok (if a.num < 0 then compare a.den b.den else (compare a.den b.den).swap)
    else do
      let x ← t.divModFloor a.num a.den
      let y ← t.divModFloor b.num b.den
      match compare x.1 y.1 with
      | .gt => .ok .gt
      | .lt => .ok .lt
      | .eq =>
        if x.2 = 0 then .ok (if y.2 = 0 then .eq else .lt)
        else if y.2 = 0 then .ok .gt
        else do
          let o ← cmpFuel fuel ⟨a.den, x.2⟩ ⟨b.den, y.2⟩
          .ok o.swap

/-- `Ord::cmp`, derived through the newtype (num_traits.rs:286-291): each step makes the denominators smaller -/
def cmp (a b : Frac) : Res Ordering := cmpFuel t (a.den.natAbs + 1) a b

/-- `Ord::min(self, other)` as the standard library defines it from `cmp` (num_traits.rs:365-367) -/
def minByCmp (a b : Frac) : Res Frac := do
  match ← cmp t a b with
  | .gt => .ok b
  | _ => .ok a

/-- `Ord::max(self, other)` as the standard library defines it from `cmp` (num_traits.rs:369-371) -/
def maxByCmp (a b : Frac) : Res Frac := do
  match ← cmp t a b with
  | .gt => .ok a
  | _ => .ok b

end Frac
end BSQ
