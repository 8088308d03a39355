import Verif.Model.SharedCache
import Verif.Spec.CacheMap
import Verif.Spec.SharedMap
/-!
# What a cache and a registry of defaults remember when stats cannot be told apart
-/
namespace BSQ
variable {E : Env} {Q Ent : Type} [DecidableEq Q] [DecidableEq Ent] (loc : E.S → Nat)

/-- keys that the cache cannot tell apart -/
def SameEntry (a b : CacheKey E Q Ent) : Prop := a.entity = b.entity ∧ a.query = b.query ∧ SameStat loc a.stat b.stat

instance (a b : CacheKey E Q Ent) : Decidable (SameEntry loc a b) := by unfold SameEntry; infer_instance

/-- the value most recently stored since the last `clear` for a key or one that cannot be told apart from it -/
def CacheOp.recallAt (k : CacheKey E Q Ent) (ops : List (CacheOp E Q Ent)) : Option k.stat.Val :=
  ops.foldl (fun found o => match o with
    | .store e q s v => if SameEntry loc ⟨e, q, s⟩ k then E.seen k.stat.ty v else found
    | .clear => none) none

/-- the calls themselves -/
def CacheOp.applyAt (c : Cache E Q Ent) : CacheOp E Q Ent → Res (Cache E Q Ent)
  | .store e q s v => do
    let p ← Pair.new s v
    Cache.cachePairAt loc c e q p
  | .clear => Cache.clear c

/-- one after the other -/
def CacheOp.runAt : List (CacheOp E Q Ent) → Cache E Q Ent → Res (Cache E Q Ent)
  | [], c => .ok c
  | o :: os, c => do
    let c' ← o.applyAt loc c
    runAt os c'

omit [DecidableEq Q] [DecidableEq Ent] in
/-- the default registered last for a stat or one that cannot be told apart from it -/
def lastDefault (s : StatInst E) (l : List ((s : StatInst E) × s.Val)) : Option s.Val :=
  l.foldl (fun found x => if SameStat loc x.1 s then E.seen s.ty x.2 else found) none

end BSQ
