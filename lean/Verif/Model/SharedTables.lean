import Verif.Model.Plugin
/-!
# Vtables at equal addresses  (src/stat.rs:105-162, 313-350, src/plugin.rs:147-174)

`Addr` gives different stat types different addresses.  That is so when `Stat::vtable` returns a reference to a
`static`, as `vtable!` does (lib.rs:194-200).  A `static` cannot mention the parameters of a generic stat type, so
such a type returns a reference to a constant (`const { &StatVTable::of::<Self>() }`), and the compiler may give
constants with equal bytes one address.

Here the addresses are arbitrary.  Each definition is the one of `Model/Env.lean` or `Model/Plugin.lean` with
the address function of an `Addr` replaced by any function; they agree where both make sense
(`Verif/Props/SharedTables.lean`).
-/
namespace BSQ
variable {E : Env} (loc : E.S → Nat)

/-- `PartialEq for StatInst` (stat.rs:137-141) -/
def StatInst.eqAt (a b : StatInst E) : Bool := a.index == b.index && loc a.vt == loc b.vt

/-- `Ord for StatInst` (stat.rs:151-155) -/
def StatInst.cmpAt (a b : StatInst E) : Ordering :=
  (compare (loc a.vt) (loc b.vt)).then (compare a.index b.index)

namespace Pair

/-- `StatValuePair::cast::<T>` (stat.rs:318-329) -/
def castAt (p : Pair E) (T : E.S) : Res (Option (E.Sel T × E.El (E.valTy T))) := do
  validate (E.statLayout T)
  if loc p.stat.vt = loc T then do
    let s ← E.fromIndex T p.stat.index
    let v ← p.value.get (E.valTy T)
    .ok (some (s, v))
  else .ok none

/-- `StatValuePair::is_then_cast` (stat.rs:332-340) -/
def isThenCastAt (p : Pair E) {T : E.S} (other : E.Sel T) : Res (Option (E.El (E.valTy T))) := do
  validate (E.statLayout T)
  if p.stat.eqAt loc (E.asEntry other) then do
    let v ← p.value.get (E.valTy T)
    .ok (some v)
  else .ok none

/-- `StatValuePair::into_result::<T>` (stat.rs:343-350) -/
def intoResultAt (p : Pair E) (T : E.S) : Res (Option (E.El (E.valTy T))) := do
  validate (E.statLayout T)
  if loc p.stat.vt = loc T then do
    let v ← p.value.read (E.valTy T)
    .ok (some v)
  else .ok none

end Pair

namespace Defaults

/-- `GlobalStatDefaults::insert` (plugin.rs:148-150): an equal key stays, its value is replaced -/
def insertAt (d : Defaults E) (s : StatInst E) (v : s.Val) : Res (Defaults E) := do
  let b ← Buf.from_ s.ty v
  .ok (HMap.insert (StatInst.eqAt loc) d s b).1

/-- `GlobalStatDefaults::get` (plugin.rs:168-174) -/
def getAt (d : Defaults E) (s : StatInst E) : Res s.Val :=
  match HMap.get (StatInst.eqAt loc) d s with
  | some b => b.read s.ty
  | none => .ok s.sv.default

/-- inserting one after another, starting with an empty registry; an insertion that panics ends the program -/
def fillAt (l : List ((s : StatInst E) × s.Val)) : Res (Defaults E) :=
  l.foldlM (fun d x => insertAt loc d x.1 x.2) []

end Defaults
end BSQ
