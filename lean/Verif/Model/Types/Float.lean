import Verif.Model.StatValue
import Verif.Model.Float
/-!
# Float / fraction stats  (src/types/float.rs)
-/
namespace BSQ

/-- `StatFloat<T>` (float.rs:9-14) -/
structure StatFloat (F : Type) where
  addend : F
  min : F
  max : F
  mult : F
  deriving DecidableEq, Repr

/-- `impl Default`/`impl StatValue for StatFloat<T>` (float.rs:16-72) -/
abbrev statFloat {F : Type} (O : FloatOps F) : StatValue (StatFloat F) where
  Out := F
  AddT := F
  MulT := F
  BitT := Empty
  BoundsT := F
  BaseT := F
  default := { addend := O.zero, min := O.minValue, max := O.maxValue, mult := O.one }
  join a b := do
    let addend ← O.add a.addend b.addend
    let mult ← O.mul a.mult b.mult
    .ok { addend := addend, mult := mult, min := O.max a.min b.min, max := O.min a.max b.max }
  eval a := do
    let x ← O.mul a.addend a.mult
    .ok (O.max (O.min x a.max) a.min)
  add a o := do
    let addend ← O.add a.addend o
    .ok { a with addend := addend }
  mul a o := do
    let mult ← O.mul a.mult o
    .ok { a with mult := mult }
  min a o := .ok { a with min := O.max a.min o }
  max a o := .ok { a with max := O.min a.max o }
  fromBase b := { addend := b, min := O.minValue, max := O.maxValue, mult := O.one }

/-- `StatFloatAdditive<T>` (float.rs:77-82) -/
structure StatFloatAdditive (F : Type) where
  addend : F
  min : F
  max : F
  mult : F
  deriving DecidableEq, Repr

/-- `impl Default`/`impl StatValue for StatFloatAdditive<T>` (float.rs:84-142) -/
abbrev statFloatAdditive {F : Type} (O : FloatOps F) : StatValue (StatFloatAdditive F) where
  Out := F
  AddT := F
  MulT := F
  BitT := Empty
  BoundsT := F
  BaseT := F
  default := { addend := O.zero, min := O.minValue, max := O.maxValue, mult := O.zero }
  join a b := do
    let addend ← O.add a.addend b.addend
    let mult ← O.add a.mult b.mult
    .ok { addend := addend, mult := mult, min := O.max a.min b.min, max := O.min a.max b.max }
  eval a := do
    let m ← O.add a.mult O.one
    let x ← O.mul a.addend m
    .ok (O.max (O.min x a.max) a.min)
  add a o := do
    let addend ← O.add a.addend o
    .ok { a with addend := addend }
  mul a o := do
    let mult ← O.add a.mult o
    .ok { a with mult := mult }
  min a o := .ok { a with min := O.max a.min o }
  max a o := .ok { a with max := O.min a.max o }
  fromBase b := { addend := b, min := O.minValue, max := O.maxValue, mult := O.zero }

/-- `StatMult<T>` (float.rs:147-151) -/
structure StatMult (F : Type) where
  min : F
  max : F
  mult : F
  deriving DecidableEq, Repr

/-- `impl Default`/`impl StatValue for StatMult<T>` (float.rs:153-204) -/
abbrev statMult {F : Type} (O : FloatOps F) : StatValue (StatMult F) where
  Out := F
  AddT := Empty
  MulT := F
  BitT := Empty
  BoundsT := F
  BaseT := F
  default := { min := O.minValue, max := O.maxValue, mult := O.one }
  join a b := do
    let mult ← O.mul a.mult b.mult
    .ok { mult := mult, min := O.max a.min b.min, max := O.min a.max b.max }
  eval a := .ok (O.max (O.min a.mult a.max) a.min)
  mul a o := do
    let mult ← O.mul a.mult o
    .ok { a with mult := mult }
  min a o := .ok { a with min := O.max a.min o }
  max a o := .ok { a with max := O.min a.max o }
  fromBase b := { min := O.minValue, max := O.maxValue, mult := b }

end BSQ
