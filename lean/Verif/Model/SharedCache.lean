import Verif.Model.SharedTables
/-!
# The cache when vtables may share an address  (src/cache.rs)

As in `Verif.Model.SharedTables` the addresses of vtables are arbitrary.  A key that is found equal stays in the map
when its value is replaced (`HashMap::insert`), so its stat may be another one with the same address and index.
-/
namespace BSQ
variable {E : Env} {Q Ent : Type} [DecidableEq Q] [DecidableEq Ent] (loc : E.S → Nat)

/-- derived `==` of `CachedEntry` (cache.rs:11) -/
def CacheKey.eqAt (a b : CacheKey E Q Ent) : Bool :=
  decide (a.entity = b.entity) && decide (a.query = b.query) && a.stat.eqAt loc b.stat

namespace Cache

/-- `StatCache::cache_pair` (cache.rs:56-65) -/
def cachePairAt (c : Cache E Q Ent) (e : Ent) (q : QualifierQuery Q) (p : Pair E) : Res (Cache E Q Ent) := do
  let b ← p.cloneBuffer
  .ok (HMap.insert (CacheKey.eqAt loc) c ⟨e, q, p.stat⟩ b).1

/-- `StatCache::try_get_cached_dyn` (cache.rs:67-82) -/
def tryGetAt (c : Cache E Q Ent) (e : Ent) (q : QualifierQuery Q) (s : StatInst E) : Res (Option (Buf E)) :=
  Defaults.cloned s (HMap.get (CacheKey.eqAt loc) c ⟨e, q, s⟩)

end Cache
end BSQ
