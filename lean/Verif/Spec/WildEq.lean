import Verif.Model.Querier
/-!
# Qualifier types whose `Eq` or `Hash` is wrong

The cache is a hash map whose keys contain a `QualifierQuery<Q>` (cache.rs:11-16).  If `Q`'s `Eq`, `Hash` or `Clone`
are wrong, then a lookup may miss what is there, or find what was stored for another query.  It compares the whole
key, though, and entity and stat are compared by code that is right: so it finds nothing for other entities or stats.
`HashMap::insert` with a key found to be present keeps the key and replaces the value.
-/
namespace BSQ
variable {E : Env} {Q Ent : Type}

/-- what a lookup may find -/
def Cache.MayFind (c : Cache E Q Ent) (k : CacheKey E Q Ent) (o : Option (Buf E)) : Prop :=
  o = none ∨ ∃ x ∈ c, x.1.entity = k.entity ∧ x.1.stat = k.stat ∧ o = some x.2

/-- what an insertion may leave -/
def Cache.MayBecome (c : Cache E Q Ent) (k : CacheKey E Q Ent) (b : Buf E) (c' : Cache E Q Ent) : Prop :=
  c'.Perm ((k, b) :: c) ∨
  ∃ x r, c.Perm (x :: r) ∧ x.1.entity = k.entity ∧ x.1.stat = k.stat ∧ c'.Perm ((x.1, b) :: r)

/-- `Step`, with such a cache -/
inductive WildStep (A : Addr E) (J : Joined E Q Ent) : Conf E Q Ent → Conf E Q Ent → Prop
  | start (c ts n r) : WildStep A J ⟨c, ts⟩ ⟨c, ts ++ [⟨n, r, J.handle A n r⟩]⟩
  | get (c ts i n r k f o) (h : ts[i]? = some ⟨n, r, .get k f⟩) (ho : c.MayFind k o) :
    WildStep A J ⟨c, ts⟩ ⟨c, ts.set i ⟨n, r, f o⟩⟩
  | put (c c' ts i n r k b f) (h : ts[i]? = some ⟨n, r, .put k b f⟩) (hc : c.MayBecome k b c') :
    WildStep A J ⟨c, ts⟩ ⟨c', ts.set i ⟨n, r, f⟩⟩
  | clear (c c' ts) (h : c.clear = .ok c') : WildStep A J ⟨c, ts⟩ ⟨c', ts⟩
  | wipe (c c' ts i n r f) (h : ts[i]? = some ⟨n, r, .clear f⟩) (hc : c.clear = .ok c') :
    WildStep A J ⟨c, ts⟩ ⟨c', ts.set i ⟨n, r, f⟩⟩
  | wipeFail (c e ts i n r f) (h : ts[i]? = some ⟨n, r, .clear f⟩) (hc : c.clear = .error e) :
    WildStep A J ⟨c, ts⟩ ⟨c, ts.set i ⟨n, r, .fail e⟩⟩

/-- any number of steps from an empty cache and no queries; the streams may change in between -/
inductive WildReachable (A : Addr E) (P : Joined E Q Ent → Prop) : Conf E Q Ent → Prop
  | init : WildReachable A P ⟨[], []⟩
  | step {J a b} : P J → WildReachable A P a → WildStep A J a b → WildReachable A P b

end BSQ
