import Verif.Model.Env
import Verif.Model.HMap
import Verif.Model.Qualifier
/-!
# Registries and world extensions  (src/plugin.rs), the cache resource  (src/cache.rs)
-/
namespace BSQ
variable {E : Env} (A : Addr E)

/-- `GlobalStatDefaults` (plugin.rs:124-126); `new` and `default` are the empty map (plugin.rs:141-145) -/
abbrev Defaults (E : Env) := HMap (StatInst E) (Buf E)

namespace Defaults

/-- `GlobalStatDefaults::insert` (plugin.rs:148-150); the replaced buffer is discarded without being dropped
(see `Verif.Model.Ledger`) -/
def insert (d : Defaults E) (s : StatInst E) (v : s.Val) : Res (Defaults E) := do
  let b ← Buf.from_ s.ty v
  .ok (HMap.insert (StatInst.eq A) d s b).1

/-- `GlobalStatDefaults::patch` (plugin.rs:153-165).  When nothing is registered the buffer is built from the
operation itself, not from the value it was applied to (plugin.rs:159-161). -/
def patch (d : Defaults E) (s : StatInst E) (o : StatOp s.sv) : Res (Defaults E) :=
  match HMap.get (StatInst.eq A) d s with
  | some b => do
    let v ← b.read s.ty
    let v' ← o.writeTo v
    .ok (HMap.set (StatInst.eq A) d s (.val s.ty v'))
  | none => do
    let _ ← o.writeTo s.sv.default
    let b ← Buf.fromOp s.ty o
    .ok (HMap.insert (StatInst.eq A) d s b).1

/-- `GlobalStatDefaults::get` (plugin.rs:168-174) -/
def get (d : Defaults E) (s : StatInst E) : Res s.Val :=
  match HMap.get (StatInst.eq A) d s with
  | some b => b.read s.ty
  | none => .ok s.sv.default

/-- the `.map(|x| stat.clone_buffer(x))` of `get_dyn` (plugin.rs:178-180) -/
def cloned (s : StatInst E) : Option (Buf E) → Res (Option (Buf E))
  | some b => do
    let c ← vtClone s.vt b
    .ok (some c)
  | none => .ok none

/-- `GlobalStatDefaults::get_dyn` (plugin.rs:177-182).  The argument of `unwrap_or` is evaluated even when it
is not used. -/
def getDyn (d : Defaults E) (s : StatInst E) : Res (Buf E) := do
  let c ← cloned s (HMap.get (StatInst.eq A) d s)
  let dflt ← vtDefault s.vt
  .ok (c.getD dflt)

/-- `Drop for GlobalStatDefaults` (plugin.rs:185-191) -/
def drop : Defaults E → Res Unit
  | [] => .ok ()
  | (s, b) :: d => do
    vtDrop s.vt b
    drop d

end Defaults

/-- `StatDeserializers` (plugin.rs:239-242) -/
abbrev Deserializers (E : Env) := HMap String (StatInst E)

namespace Deserializers

/-- `StatDeserializers::get` (plugin.rs:277-279) -/
def get (r : Deserializers E) (name : String) : Option (StatInst E) := HMap.get (· == ·) r name

/-- the closure of `register` (plugin.rs:259-265) -/
def register1 {T : E.S} (r : Deserializers E) (x : E.Sel T) : Res (Deserializers E) :=
  match get r (E.statName x) with
  | some prev => if prev.eq A (E.asEntry x) then .ok r else .error .panic
  | none => .ok (HMap.insert (· == ·) r (E.statName x) (E.asEntry x)).1

/-- `for_each` over some values -/
def registerAll {T : E.S} : List (E.Sel T) → Deserializers E → Res (Deserializers E)
  | [], r => .ok r
  | x :: xs, r => do
    let r' ← register1 A r x
    registerAll xs r'

/-- `StatDeserializers::register::<T>` (plugin.rs:258-266) -/
def register (T : E.S) (r : Deserializers E) : Res (Deserializers E) := registerAll A (E.values T) r

/-- `for_each` with unconditional insertion -/
def replaceAll {T : E.S} : List (E.Sel T) → Deserializers E → Deserializers E
  | [], r => r
  | x :: xs, r => replaceAll xs (HMap.insert (· == ·) r (E.statName x) (E.asEntry x)).1

/-- `StatDeserializers::register_replace::<T>` (plugin.rs:271-275) -/
def registerReplace (T : E.S) (r : Deserializers E) : Deserializers E := replaceAll (E.values T) r

end Deserializers

/-! ### the cache resource -/

variable {Q Ent : Type} [DecidableEq Q] [DecidableEq Ent]

/-- `CachedEntry` (cache.rs:11-16) -/
structure CacheKey (E : Env) (Q Ent : Type) where
  entity : Ent
  query : QualifierQuery Q
  stat : StatInst E
  deriving DecidableEq

/-- derived `==` of `CachedEntry` (cache.rs:11) -/
def CacheKey.eq (a b : CacheKey E Q Ent) : Bool :=
  decide (a.entity = b.entity) && decide (a.query = b.query) && a.stat.eq A b.stat

/-- `StatCache` (cache.rs:24-27).  The lock is discussed at the concurrent semantics (`Verif.Model.Querier`). -/
abbrev Cache (E : Env) (Q Ent : Type) := HMap (CacheKey E Q Ent) (Buf E)

namespace Cache

/-- the loop of `clear` and of `Drop` (cache.rs:86-88, 95-97) -/
def dropAll : Cache E Q Ent → Res Unit
  | [] => .ok ()
  | (k, b) :: c => do
    vtDrop k.stat.vt b
    dropAll c

/-- `StatCache::clear` (cache.rs:84-90) -/
def clear (c : Cache E Q Ent) : Res (Cache E Q Ent) := do
  dropAll c
  .ok []

/-- `StatCache::cache_pair` (cache.rs:56-65): the key's stat is the pair's -/
def cachePair (c : Cache E Q Ent) (e : Ent) (q : QualifierQuery Q) (p : Pair E) : Res (Cache E Q Ent) := do
  let b ← p.cloneBuffer
  .ok (HMap.insert (CacheKey.eq A) c ⟨e, q, p.stat⟩ b).1

/-- `StatCache::try_get_cached_dyn` (cache.rs:67-82) -/
def tryGet (c : Cache E Q Ent) (e : Ent) (q : QualifierQuery Q) (s : StatInst E) : Res (Option (Buf E)) :=
  Defaults.cloned s (HMap.get (CacheKey.eq A) c ⟨e, q, s⟩)

end Cache

/-! ### `StatExtension` -/

/-- The resources of a `World` the crate uses, for one qualifier type.  `G` is the type of global streams,
`Box<dyn StatStream<Q> + Send + Sync>` (plugin.rs:196). -/
structure Resources (E : Env) (Q Ent : Type) (G : Type) where
  defaults : Option (Defaults E)
  relations : Option (List G)
  deserializers : Option (Deserializers E)
  cache : Option (Cache E Q Ent)

namespace Resources
variable {G : Type}

/-- `World::register_stat::<T>` (plugin.rs:48-52); `App` delegates to its world (plugin.rs:86-118), here and
below.  `get_resource_or_insert_with` inserts an empty resource when it is missing. -/
def registerStat (w : Resources E Q Ent G) (T : E.S) : Res (Resources E Q Ent G) := do
  let r ← Deserializers.register A T (w.deserializers.getD [])
  .ok { w with deserializers := some r }

/-- `World::register_stat_default` (plugin.rs:54-58) -/
def registerStatDefault (w : Resources E Q Ent G) (s : StatInst E) (v : s.Val) : Res (Resources E Q Ent G) := do
  let d ← Defaults.insert A (w.defaults.getD []) s v
  .ok { w with defaults := some d }

/-- `World::register_stat_min` (plugin.rs:60-64) -/
def registerStatMin (w : Resources E Q Ent G) (s : StatInst E) (v : s.sv.BoundsT) :
    Res (Resources E Q Ent G) := do
  let d ← Defaults.patch A (w.defaults.getD []) s (.min v)
  .ok { w with defaults := some d }

/-- `World::register_stat_max` (plugin.rs:66-70) -/
def registerStatMax (w : Resources E Q Ent G) (s : StatInst E) (v : s.sv.BoundsT) :
    Res (Resources E Q Ent G) := do
  let d ← Defaults.patch A (w.defaults.getD []) s (.max v)
  .ok { w with defaults := some d }

/-- `World::register_stat_relation` (plugin.rs:76-83) with `GlobalStatRelations::push` (plugin.rs:213-216);
`with` (plugin.rs:218-221) is `push` by value -/
def registerStatRelation (w : Resources E Q Ent G) (g : G) : Resources E Q Ent G :=
  { w with relations := some (w.relations.getD [] ++ [g]) }

/-- `World::clear_stat_cache` (plugin.rs:72-74): `resource_mut` panics when the resource is missing -/
def clearStatCache (w : Resources E Q Ent G) : Res (Resources E Q Ent G) :=
  match w.cache with
  | none => .error .panic
  | some c => do
    let c' ← c.clear
    .ok { w with cache := some c' }

/-- `StatQuery::clear_cache` (querier.rs:345-349) and `JoinedQuerier::clear_cache` (querier.rs:461-465) -/
def clearCache (w : Resources E Q Ent G) : Res (Resources E Q Ent G) :=
  match w.cache with
  | none => .ok w
  | some c => do
    let c' ← c.clear
    .ok { w with cache := some c' }

end Resources
end BSQ
