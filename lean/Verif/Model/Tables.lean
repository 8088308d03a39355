import Verif.Model.StatMap
/-!
# Stat types that return more than one vtable

`Stat::vtable` is a function, so it may return different static tables at different calls; its documentation says
this "would cause logical errors but not unsafety" (stat.rs:186-188).  A `StatVTable<T>` can only be built for `T`
(stat.rs:36-97), so every table belongs to one stat type.
-/
namespace BSQ

/-- the static tables of a program and the stat type each was built for -/
structure Tables (P : Env) where
  V : Type
  [dec : DecidableEq V]
  of : V → P.S

attribute [instance] Tables.dec

/-- The program as the crate sees it: a `StatInst` holds a table, and everything it does with a stat goes through
that table (stat.rs:117-121). -/
abbrev Tables.env {P : Env} (t : Tables P) : Env where
  U := P.U
  El := P.El
  sv := P.sv
  layout := P.layout
  opLayout := P.opLayout
  S := t.V
  valTy v := P.valTy (t.of v)
  statLayout v := P.statLayout (t.of v)
  Sel v := P.Sel (t.of v)
  asIndex x := P.asIndex x
  fromIndex v i := P.fromIndex (t.of v) i
  statName x := P.statName x
  values v := P.values (t.of v)

end BSQ
