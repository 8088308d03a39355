import Verif.Spec.Querier
/-!
# Stale results
-/
namespace BSQ
variable {E : Env} {Q Ent α : Type}

/-- the code neither asks the querier anything nor touches the cache -/
def Prog.Silent : Prog E Q Ent α → Prop
  | ret _ => True
  | fail _ => True
  | ask _ _ => False
  | attempt _ _ => False
  | clear _ => False
  | store _ _ _ _ => False

/-- no stream uses the querier it is handed, or the cache -/
abbrev Joined.Silent (J : Joined E Q Ent) : Prop := J.Each Prog.Silent

/-- for each entity, query and stat: the world (and streams) when it was first queried successfully since the last
clear, with a cache -/
abbrev Snapshots (E : Env) (Q Ent : Type) := CacheKey E Q Ent → Option (Joined E Q Ent)

/-- the world that a request in the world of `J` sees -/
def Snapshots.seen (w : Snapshots E Q Ent) (J : Joined E Q Ent) : Req E Q Ent → Joined E Q Ent
  | .stat e q s => if J.world.isStat e = true ∧ J.world.cached = true then (w ⟨e, q, s⟩).getD J else J
  | .relation _ _ _ _ => J
  | .attr _ _ => J

open Classical in
/-- after a request in the world of `J` -/
noncomputable def Snapshots.after (A : Addr E) (w : Snapshots E Q Ent) (J : Joined E Q Ent) (n : Nat) :
    Req E Q Ent → Snapshots E Q Ent
  | .stat e q s => fun k =>
    if k = ⟨e, q, s⟩ ∧ w k = none ∧ J.world.isStat e = true ∧ J.world.cached = true ∧
        ∃ x, J.answer A n (.stat e q s) = .ok x
    then some J else w k
  | .relation _ _ _ _ => w
  | .attr _ _ => w

/-- what the requests of a history return if each sees the world of its snapshot and knows no cache -/
noncomputable def snapshotHistory (A : Addr E) :
    Joined E Q Ent → Snapshots E Q Ent → List (Event E Q Ent) → List (Outcome E Q Ent)
  | _, _, [] => []
  | J, w, .query n r :: evs => ⟨J, n, r, (w.seen J r).answer A n r⟩ :: snapshotHistory A J (w.after A J n r) evs
  | J, _, .clear :: evs => snapshotHistory A J (fun _ => none) evs
  | _, w, .change J :: evs => snapshotHistory A J w evs

end BSQ
