import Verif.Model.Querier
/-!
# Stretches of execution in which nobody clears the cache

Used by C115.  Independent of how the querier decides what to look up and store.
-/
namespace BSQ
variable {E : Env} {Q Ent : Type} [DecidableEq Q] [DecidableEq Ent]

/-- one step of some thread other than clearing the cache, with the thread and the key if it is a store -/
inductive Move (A : Addr E) (J : Joined E Q Ent) :
    Conf E Q Ent → Option (Nat × CacheKey E Q Ent) → Conf E Q Ent → Prop
  | start (c ts n r) : Move A J ⟨c, ts⟩ none ⟨c, ts ++ [⟨n, r, J.handle A n r⟩]⟩
  | get (c ts i n r k f) (h : ts[i]? = some ⟨n, r, .get k f⟩) :
    Move A J ⟨c, ts⟩ none ⟨c, ts.set i ⟨n, r, f (HMap.get (CacheKey.eq A) c k)⟩⟩
  | put (c ts i n r k b f) (h : ts[i]? = some ⟨n, r, .put k b f⟩) :
    Move A J ⟨c, ts⟩ (some (i, k)) ⟨(HMap.insert (CacheKey.eq A) c k b).1, ts.set i ⟨n, r, f⟩⟩

/-- any number of steps of any threads without clearing the cache, with the stores made, in order -/
inductive Stretch (A : Addr E) (J : Joined E Q Ent) :
    Conf E Q Ent → List (Nat × CacheKey E Q Ent) → Conf E Q Ent → Prop
  | refl (a) : Stretch A J a [] a
  | move {a l b o c} : Stretch A J a l b → Move A J b o c → Stretch A J a (l ++ o.toList) c

/-- the query has not returned yet -/
def Thread.running (t : Thread E Q Ent) : Bool :=
  match t.code with
  | .ret _ => false
  | .fail _ => false
  | _ => true

end BSQ
