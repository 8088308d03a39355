import Verif.Spec.Querier
/-!
# What a cache remembers
-/
namespace BSQ
variable {E : Env} {Q Ent : Type}

/-- what can be done to a cache: `cache_pair` (with a pair built by `StatValuePair::new`) and `clear` -/
inductive CacheOp (E : Env) (Q Ent : Type) where
  | store (e : Ent) (q : QualifierQuery Q) (s : StatInst E) (v : s.Val)
  | clear

/-- what is remembered for a key after an operation, given what was remembered before -/
def CacheOp.after [DecidableEq Q] [DecidableEq Ent] (k : CacheKey E Q Ent) (found : Option (Buf E)) :
    CacheOp E Q Ent → Option (Buf E)
  | .store e q s v => if (⟨e, q, s⟩ : CacheKey E Q Ent) = k then some (.val s.ty v) else found
  | .clear => none

/-- the value most recently stored for a key since the last `clear` -/
def CacheOp.recall [DecidableEq Q] [DecidableEq Ent] (k : CacheKey E Q Ent) (ops : List (CacheOp E Q Ent)) :
    Option (Buf E) := ops.foldl (CacheOp.after k) none

/-- values that can be stored in a buffer -/
def CacheOp.Fits : CacheOp E Q Ent → Prop
  | .store _ _ s _ => Storable (E.layout s.ty)
  | .clear => True

/-- the calls themselves; each can panic -/
def CacheOp.apply [DecidableEq Q] [DecidableEq Ent] (A : Addr E) (c : Cache E Q Ent) :
    CacheOp E Q Ent → Res (Cache E Q Ent)
  | .store e q s v => do
    let p ← Pair.new s v
    Cache.cachePair A c e q p
  | .clear => Cache.clear c

/-- one after the other -/
def CacheOp.run [DecidableEq Q] [DecidableEq Ent] (A : Addr E) :
    List (CacheOp E Q Ent) → Cache E Q Ent → Res (Cache E Q Ent)
  | [], c => .ok c
  | o :: os, c => do
    let c' ← o.apply A c
    run A os c'

end BSQ
