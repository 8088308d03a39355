import Verif.Model.Fickle
/-!
# `Clone` of values that does not copy

`Clone` of a value type is user code (`Shareable: Clone`, lib.rs), and need not give an equal value.  Everywhere else
in the model it does (`vtClone`, Model/Env.lean).  Here it is any function on each value type that returns; a `Clone`
that panics is the subject of Model/Unwind.lean and Model/HostileCache.lean.

Values are cloned by the vtable entry `clone` (stat.rs:57, 88): when a pair is stored in the cache (cache.rs:63,
stat.rs:352-355), when a value is found there (cache.rs:81), when a registered default is read (plugin.rs:180) and
when a `StatMap` is cloned (stat_map.rs:25-33, 64).  (`join_by_ref`, operations.rs:51-53, clones as well, but `join`
of the model stands for all of it.)
-/
namespace BSQ
variable {E : Env} {Q Ent α : Type}

/-- what `Clone` of each value type does -/
abbrev Cloning (E : Env) := (u : E.U) → E.El u → E.El u

/-- a buffer cloned by the vtable entry of its value type -/
def Buf.clonedBy (C : Cloning E) : Buf E → Buf E
  | .val u x => .val u (C u x)
  | .op u o => .op u o

/-- A registered default is cloned each time it is read (plugin.rs:177-182), once: as good as a registry of clones. -/
def Joined.cloning (C : Cloning E) (J : Joined E Q Ent) : Joined E Q Ent :=
  { J with world := { J.world with
      defaults := J.world.defaults.map fun d => d.map fun x => (x.1, x.2.clonedBy C) } }

/-- derived `Clone for StatMap` (stat_map.rs:25-33, 64); the reads and checks are those of `StatMap.clone` -/
def StatMap.cloneBy (C : Cloning E) (m : StatMap E Q) : Res (StatMap E Q) := do
  let m' ← m.clone
  .ok (m'.map fun e => { e with buf := e.buf.clonedBy C })

section
variable [DecidableEq Q] [DecidableEq Ent]

/-- Run alone on a cache, as `CProg.run` (Model/Querier.lean): what is found is cloned before it is returned
(cache.rs:73-82), and what is stored is a clone (cache.rs:57-64). -/
def CProg.runCloning (A : Addr E) (C : Cloning E) :
    CProg E Q Ent α → Cache E Q Ent → Res α × Cache E Q Ent
  | ret a, c => (.ok a, c)
  | fail e, c => (.error e, c)
  | get k f, c => runCloning A C (f ((HMap.get (CacheKey.eq A) c k).map (Buf.clonedBy C))) c
  | put k b f, c => runCloning A C f (HMap.insert (CacheKey.eq A) c k (b.clonedBy C)).1
  | clear f, c =>
    match c.clear with
    | .ok c' => runCloning A C f c'
    | .error e => (.error e, c)

/-- One step of some thread, as `FStep` (Model/Fickle.lean) and with cache accesses as in `runCloning`. -/
inductive CloneStep (A : Addr E) (C : Cloning E) (F : Joined E Q Ent → Prop) :
    Conf E Q Ent → Conf E Q Ent → Prop
  | start (c ts n r code) (h : MayRun A (fun J' => ∃ J, F J ∧ J' = J.cloning C) n r code) :
    CloneStep A C F ⟨c, ts⟩ ⟨c, ts ++ [⟨n, r, code⟩]⟩
  | get (c ts i n r k f) (h : ts[i]? = some ⟨n, r, .get k f⟩) :
    CloneStep A C F ⟨c, ts⟩ ⟨c, ts.set i ⟨n, r, f ((HMap.get (CacheKey.eq A) c k).map (Buf.clonedBy C))⟩⟩
  | put (c ts i n r k b f) (h : ts[i]? = some ⟨n, r, .put k b f⟩) :
    CloneStep A C F ⟨c, ts⟩ ⟨(HMap.insert (CacheKey.eq A) c k (b.clonedBy C)).1, ts.set i ⟨n, r, f⟩⟩
  | clear (c c' ts) (h : c.clear = .ok c') : CloneStep A C F ⟨c, ts⟩ ⟨c', ts⟩
  | wipe (c c' ts i n r f) (h : ts[i]? = some ⟨n, r, .clear f⟩) (hc : c.clear = .ok c') :
    CloneStep A C F ⟨c, ts⟩ ⟨c', ts.set i ⟨n, r, f⟩⟩
  | wipeFail (c e ts i n r f) (h : ts[i]? = some ⟨n, r, .clear f⟩) (hc : c.clear = .error e) :
    CloneStep A C F ⟨c, ts⟩ ⟨c, ts.set i ⟨n, r, .fail e⟩⟩

/-- any number of steps from an empty cache and no queries -/
inductive CloneReachable (A : Addr E) (C : Cloning E) (F : Joined E Q Ent → Prop) : Conf E Q Ent → Prop
  | init : CloneReachable A C F ⟨[], []⟩
  | step {a b} : CloneReachable A C F a → CloneStep A C F a b → CloneReachable A C F b

end
end BSQ
