import Verif.Spec.Querier
import Verif.Spec.Ledger
/-! # The accesses to the cache that a history makes, and what it means that nothing is overwritten -/
namespace BSQ
variable {E : Env} {Q Ent α : Type} [DecidableEq Q] [DecidableEq Ent]

/-- the accesses to the cache in a run, in order -/
def CProg.accesses (A : Addr E) :
    CProg E Q Ent α → Cache E Q Ent → List (HOp E (CacheKey E Q Ent))
  | .ret _, _ => []
  | .fail _, _ => []
  | .get k f, c => .lookup k :: accesses A (f (HMap.get (CacheKey.eq A) c k)) c
  | .put k b f, c => .insert k :: accesses A f (HMap.insert (CacheKey.eq A) c k b).1
  | .clear f, c =>
    .clear :: match c.clear with
      | .ok c' => accesses A f c'
      | .error _ => []

/-- the accesses to the cache in a history -/
def historyAccesses (A : Addr E) :
    Joined E Q Ent → Cache E Q Ent → List (Event E Q Ent) → List (HOp E (CacheKey E Q Ent))
  | _, _, [] => []
  | J, c, .query n r :: evs =>
    (J.handle A n r).accesses A c ++ historyAccesses A J ((J.handle A n r).run A c).2 evs
  | J, c, .clear :: evs =>
    .clear :: match c.clear with
      | .ok c' => historyAccesses A J c' evs
      | .error _ => []
  | _, c, .change J :: evs => historyAccesses A J c evs

/-- no key is inserted twice without a clear in between; `ks` are the keys inserted since the last clear -/
def NoneTwice {K : Type} : (ks : List K) → List (HOp E K) → Prop
  | _, [] => True
  | ks, .insert k :: os => k ∉ ks ∧ NoneTwice (k :: ks) os
  | _, .clear :: os => NoneTwice [] os
  | ks, .patch _ _ :: os => NoneTwice ks os
  | ks, .lookup _ :: os => NoneTwice ks os
  | ks, .get _ :: os => NoneTwice ks os
  | ks, .getDyn _ :: os => NoneTwice ks os

end BSQ
