import Verif.Model.StatValue
import Verif.Model.Rounding
/-!
# Integer stats  (src/types/int_ratio.rs, src/types/int_pct.rs)

Machine integers are `Int` values together with the `NumTy` they belong to.  The alignment attributes
and the `PhantomData` field are modelled in `Verif.Model.Layout` only.
-/
namespace BSQ

/-- `StatInt<T>` (int_ratio.rs:15-20) -/
structure StatInt where
  addend : Int
  min : Int
  max : Int
  mult : Int
  deriving DecidableEq, Repr

/-- `impl Default`/`impl StatValue for StatInt<T>` (int_ratio.rs:22-78) -/
abbrev statInt (t : NumTy) : StatValue StatInt where
  Out := Int
  AddT := Int
  MulT := Int
  BitT := Empty
  BoundsT := Int
  BaseT := Int
  default := { addend := 0, min := t.minValue, max := t.maxValue, mult := 1 }
  join a b := do
    let addend ← t.add a.addend b.addend
    let mult ← t.mul a.mult b.mult
    .ok { addend := addend, mult := mult, min := t.max a.min b.min, max := t.min a.max b.max }
  eval a := do
    let x ← t.mul a.addend a.mult
    .ok (t.max (t.min x a.max) a.min)
  add a o := do
    let addend ← t.add a.addend o
    .ok { a with addend := addend }
  mul a o := do
    let mult ← t.mul a.mult o
    .ok { a with mult := mult }
  min a o := .ok { a with min := t.max a.min o }
  max a o := .ok { a with max := t.min a.max o }
  fromBase b := { addend := b, min := t.minValue, max := t.maxValue, mult := 1 }

/-- `StatIntFraction<T, R>` (int_ratio.rs:85-91) -/
structure StatIntFraction where
  addend : Int
  min : Int
  max : Int
  mult : Frac
  deriving DecidableEq, Repr

/-- `impl Default`/`impl StatValue for StatIntFraction<T, R>` (int_ratio.rs:93-155);
fractions compute in the primitive type `T::PrimInt`. -/
abbrev statIntFraction (t : NumTy) (R : Rounding) : StatValue StatIntFraction where
  Out := Int
  AddT := Int
  MulT := Frac
  BitT := Empty
  BoundsT := Int
  BaseT := Int
  default := { addend := 0, min := t.minValue, max := t.maxValue, mult := (Frac.ops t.primInt).one }
  join a b := do
    let addend ← t.add a.addend b.addend
    let mult ← Frac.mul t.primInt a.mult b.mult
    .ok { addend := addend, mult := mult, min := t.max a.min b.min, max := t.min a.max b.max }
  eval a := do
    let val ← Frac.mul t.primInt a.mult (t.intoFraction a.addend)
    let r ← R.apply (Frac.ops t.primInt) val
    let intVal ← t.fromFraction r
    .ok (t.max (t.min intVal a.max) a.min)
  add a o := do
    let addend ← t.add a.addend o
    .ok { a with addend := addend }
  mul a o := do
    let mult ← Frac.mul t.primInt a.mult o
    .ok { a with mult := mult }
  min a o := .ok { a with min := t.max a.min o }
  max a o := .ok { a with max := t.min a.max o }
  fromBase b :=
    { addend := b, min := t.minValue, max := t.maxValue, mult := (Frac.ops t.primInt).one }

/-- `StatIntFloatMul<T, F, R>` (int_ratio.rs:160-166) -/
structure StatIntFloatMul (F : Type) where
  addend : Int
  min : Int
  max : Int
  mult : F
  deriving DecidableEq, Repr

/-- `impl Default`/`impl StatValue for StatIntFloatMul<T, F, R>` (int_ratio.rs:168-232);
`toF`/`ofF` are the `AsPrimitive` casts `T → F`, `F → T` (Rust `as`). -/
abbrev statIntFloatMul {F : Type} (t : NumTy) (O : FloatOps F) (toF : Int → F) (ofF : F → Int)
    (R : Rounding) : StatValue (StatIntFloatMul F) where
  Out := Int
  AddT := Int
  MulT := F
  BitT := Empty
  BoundsT := Int
  BaseT := Int
  default := { addend := 0, min := t.minValue, max := t.maxValue, mult := O.one }
  join a b := do
    let addend ← t.add a.addend b.addend
    let mult ← O.mul a.mult b.mult
    .ok { addend := addend, mult := mult, min := t.max a.min b.min, max := t.min a.max b.max }
  eval a := do
    let val ← O.mul (toF a.addend) a.mult
    let r ← R.apply O val
    .ok (t.max (t.min (ofF r) a.max) a.min)
  add a o := do
    let addend ← t.add a.addend o
    .ok { a with addend := addend }
  mul a o := do
    let mult ← O.mul a.mult o
    .ok { a with mult := mult }
  min a o := .ok { a with min := t.max a.min o }
  max a o := .ok { a with max := t.min a.max o }
  fromBase b := { addend := b, min := t.minValue, max := t.maxValue, mult := O.one }

/-- `StatIntPercentAdditive<T, R, SCALE>` (int_pct.rs:15-21) -/
structure StatIntPercentAdditive where
  addend : Int
  mult : Int
  min : Int
  max : Int
  deriving DecidableEq, Repr

/-- `impl Default`/`impl StatValue for StatIntPercentAdditive<T, R, S>` (int_pct.rs:23-84) -/
abbrev statIntPercentAdditive (t : NumTy) (R : Rounding) (S : Int) :
    StatValue StatIntPercentAdditive where
  Out := Int
  AddT := Int
  MulT := Int
  BitT := Empty
  BoundsT := Int
  BaseT := Int
  default := { addend := 0, min := t.minValue, max := t.maxValue, mult := 0 }
  join a b := do
    let addend ← t.add a.addend b.addend
    let mult ← t.add a.mult b.mult
    .ok { addend := addend, mult := mult, max := t.min a.max b.max, min := t.max a.min b.min }
  eval a := do
    let s ← t.fromI64 S
    let m ← t.add a.mult s
    let numer ← t.mul a.addend m
    let denom ← t.fromI64 S
    let f ← t.buildFraction numer denom
    let r ← R.apply (Frac.ops t.primInt) f
    let base ← t.fromFraction r
    .ok (t.max (t.min base a.max) a.min)
  add a o := do
    let addend ← t.add a.addend o
    .ok { a with addend := addend }
  mul a o := do
    let mult ← t.add a.mult o
    .ok { a with mult := mult }
  min a o := .ok { a with min := t.max a.min o }
  max a o := .ok { a with max := t.min a.max o }
  fromBase b := { addend := b, min := t.minValue, max := t.maxValue, mult := 0 }

/-- `StatIntPercent<T, R, SCALE>` (int_pct.rs:93-99) -/
structure StatIntPercent where
  addend : Int
  mult : Frac
  min : Int
  max : Int
  deriving DecidableEq, Repr

/-- `impl Default`/`impl StatValue for StatIntPercent<T, R, S>` (int_pct.rs:101-161).
As in the code: the default addend is `ONE`, `join` *adds* the multipliers, `mul` multiplies. -/
abbrev statIntPercent (t : NumTy) (R : Rounding) (S : Int) : StatValue StatIntPercent where
  Out := Int
  AddT := Int
  MulT := Int
  BitT := Empty
  BoundsT := Int
  BaseT := Int
  default := { addend := 1, min := t.minValue, max := t.maxValue, mult := (Frac.ops t.primInt).one }
  join a b := do
    let addend ← t.add a.addend b.addend
    let mult ← Frac.add t.primInt a.mult b.mult
    .ok { addend := addend, mult := mult, max := t.min a.max b.max, min := t.max a.min b.min }
  eval a := do
    let fraction ← Frac.mul t.primInt (t.intoFraction a.addend) a.mult
    let r ← R.apply (Frac.ops t.primInt) fraction
    let int ← t.fromFraction r
    .ok (t.max (t.min int a.max) a.min)
  add a o := do
    let addend ← t.add a.addend o
    .ok { a with addend := addend }
  mul a o := do
    let s ← t.fromI64 S
    let f ← t.buildFraction o s
    let mult ← Frac.mul t.primInt a.mult f
    .ok { a with mult := mult }
  min a o := .ok { a with min := t.max a.min o }
  max a o := .ok { a with max := t.min a.max o }
  fromBase b :=
    { addend := b, min := t.minValue, max := t.maxValue, mult := (Frac.ops t.primInt).one }

end BSQ
