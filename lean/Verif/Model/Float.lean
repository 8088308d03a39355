import Verif.Model.Num
/-!
# trait `Float`  (src/num_traits.rs:204-219) and its `Fraction` implementor (src/num_traits.rs:283-388)
-/
namespace BSQ

/-- trait `Float` with its `NumOps`/`PartialOrd` supertraits, as a dictionary (num_traits.rs:14-32, 205-219).
`AddAssign`/`MulAssign` are taken to agree with `Add`/`Mul`, as they do for every implementor. -/
structure FloatOps (F : Type) where
  zero : F
  one : F
  minValue : F
  maxValue : F
  add : F → F → Res F
  sub : F → F → Res F
  mul : F → F → Res F
  min : F → F → F
  max : F → F → F
  floor : F → Res F
  ceil : F → Res F
  trunc : F → Res F
  round : F → Res F
  /-- `PartialOrd::lt`; `a > b` is `lt b a` -/
  lt : F → F → Bool

/-- `Fraction<I>`, newtype of `num_rational::Ratio<I>` (num_traits.rs:283-291). -/
structure Frac where
  num : Int
  den : Int
  deriving DecidableEq, Repr

/-!
`num_rational::Ratio` (external crate, version 0.4, not part of /repo).  Each function below follows the
crate's algorithm with every intermediate machine operation checked by `t.fit`, `t` being the primitive
integer type of the fraction.  Comparison in the crate is exact and overflow free (continued fraction
comparison), so it is modelled as the exact comparison of rationals.
-/
namespace Frac
variable (t : NumTy)

/-- `Integer::gcd`: the exact gcd, then brought into range (`gcd(MIN, MIN)` overflows). -/
def gcd (a b : Int) : Res Int := t.fit (Int.gcd a b)

/-- `Integer::lcm` on non-zero arguments: `(a * (b / gcd)).abs()` -/
def lcm (a b : Int) : Res Int := do
  let g ← gcd t a b
  let q ← t.div b g
  let r ← t.mul a q
  t.fit (Int.natAbs r)

/-- `Ratio::reduce` -/
def reduce (a : Frac) : Res Frac :=
  if a.den = 0 then .error .panic
  else if a.num = 0 then .ok ⟨a.num, 1⟩
  else if a.num = a.den then .ok ⟨1, 1⟩
  else do
    let g ← gcd t a.num a.den
    let n ← t.div a.num g
    let d ← t.div a.den g
    if d < 0 then do
      let n' ← t.sub 0 n
      let d' ← t.sub 0 d
      .ok ⟨n', d'⟩
    else .ok ⟨n, d⟩

/-- `Fraction::new` = `Ratio::new` (num_traits.rs:308-310) -/
def new (n d : Int) : Res Frac := reduce t ⟨n, d⟩

/-- `Fraction::new_raw` (num_traits.rs:312-314) -/
def newRaw (n d : Int) : Frac := ⟨n, d⟩

/-- `Mul`/`MulAssign` for `Ratio` (through num_traits.rs:355); both reduce the result once more -/
def mul (a b : Frac) : Res Frac := do
  let gad ← gcd t a.num b.den
  let gbc ← gcd t a.den b.num
  let n1 ← t.div a.num gad
  let n2 ← t.div b.num gbc
  let n ← t.mul n1 n2
  let d1 ← t.div a.den gbc
  let d2 ← t.div b.den gad
  let d ← t.mul d1 d2
  reduce t ⟨n, d⟩

/-- the shared pattern of `Add`/`AddAssign` and `Sub` (through num_traits.rs:353-354) -/
def addSub (op : Int → Int → Res Int) (a b : Frac) : Res Frac :=
  if a.den = b.den then do
    let n ← op a.num b.num
    reduce t ⟨n, b.den⟩
  else do
    let l ← lcm t a.den b.den
    let qa ← t.div l a.den
    let na ← t.mul a.num qa
    let qb ← t.div l b.den
    let nb ← t.mul b.num qb
    let n ← op na nb
    reduce t ⟨n, l⟩

def add (a b : Frac) : Res Frac := addSub t t.add a b
def sub (a b : Frac) : Res Frac := addSub t t.sub a b

/-- exact `<` of the denoted rationals (denominators positive) -/
def lt (a b : Frac) : Bool := decide (a.num * b.den < b.num * a.den)

/-- `Ord::min(self, other)` (num_traits.rs:365-367): keeps `self` on ties -/
def min (a b : Frac) : Frac := if lt b a then b else a
/-- `Ord::max(self, other)` (num_traits.rs:369-371): takes `other` on ties -/
def max (a b : Frac) : Frac := if lt b a then a else b

/-- `Ratio::trunc` (num_traits.rs:381-383) -/
def trunc (a : Frac) : Res Frac := do
  let n ← t.div a.num a.den
  .ok ⟨n, 1⟩

/-- `Ratio::floor` (num_traits.rs:373-375) -/
def floor (a : Frac) : Res Frac :=
  if lt a ⟨0, 1⟩ then do
    let x ← t.sub a.num a.den
    let y ← t.add x 1
    let n ← t.div y a.den
    .ok ⟨n, 1⟩
  else trunc t a

/-- `Ratio::ceil` (num_traits.rs:377-379) -/
def ceil (a : Frac) : Res Frac :=
  if lt a ⟨0, 1⟩ then trunc t a
  else do
    let x ← t.add a.num a.den
    let y ← t.sub x 1
    let n ← t.div y a.den
    .ok ⟨n, 1⟩

/-- `Ratio::fract` -/
def fract (a : Frac) : Res Frac := do
  let n ← t.rem a.num a.den
  .ok ⟨n, a.den⟩

/-- first step of `Ratio::round`: absolute value of the fractional part -/
def absFract (a : Frac) : Res Frac := do
  let f ← fract t a
  if lt f ⟨0, 1⟩ then sub t ⟨0, 1⟩ f else .ok f

/-- the smallest numerator over `den` that is at least one half, in `Ratio::round` -/
def halfBound (den : Int) : Res Int := do
  let half ← t.div den 2
  if den % 2 = 0 then .ok half else t.add half 1

/-- `Ratio::round` (num_traits.rs:385-387): half away from zero -/
def round (a : Frac) : Res Frac := do
  let f ← absFract t a
  let bound ← halfBound t f.den
  let tr ← trunc t a
  if bound ≤ f.num then
    if lt a ⟨0, 1⟩ then sub t tr ⟨1, 1⟩ else add t tr ⟨1, 1⟩
  else .ok tr

/-- `Ratio::to_integer` -/
def toInteger (a : Frac) : Res Int := do
  let x ← trunc t a
  .ok x.num

/-- `impl Float for Fraction<I>` (num_traits.rs:359-388) -/
def ops : FloatOps Frac where
  zero := newRaw 0 1
  one := newRaw 1 1
  minValue := newRaw t.minValue 1
  maxValue := newRaw t.maxValue 1
  add := add t
  sub := sub t
  mul := mul t
  min := min
  max := max
  floor := floor t
  ceil := ceil t
  trunc := trunc t
  round := round t
  lt := lt
end Frac

namespace NumTy
/-- `Int::into_fraction` (num_traits.rs:118-120, 158-160) -/
def intoFraction (_t : NumTy) (x : Int) : Frac := Frac.newRaw x 1
/-- `Int::build_fraction` (num_traits.rs:122-124, 162-164): arithmetic of the primitive type -/
def buildFraction (t : NumTy) (x denom : Int) : Res Frac := Frac.new t.primInt x denom
/-- `Int::from_fraction` (num_traits.rs:126-128, 166-168) -/
def fromFraction (t : NumTy) (f : Frac) : Res Int := Frac.toInteger t.primInt f
end NumTy

end BSQ
