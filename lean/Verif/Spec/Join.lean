import Verif.Spec.Querier
import Verif.Spec.Misc
/-!
# What sources contribute to a query
-/
namespace BSQ
variable {E : Env} {Q Ent : Type}

/-- `v` can be assembled from the contributions `L`, in some order and grouping -/
def Assembles {V : Type} (D : StatValue V) (okOp : StatOp D → Prop) (v : V) (L : List (StatOp D)) : Prop :=
  ∃ t : Tree D, t.NoReset ∧ (∀ o ∈ t.leaves, okOp o) ∧ t.leaves.Perm L ∧ t.run = .ok v

/-- given answers to its questions, the call joins the values `l` into the pair, and nothing else -/
def Call.Joins (o : Oracle E Q Ent) (s : StatInst E) (c : Call E Q Ent) (l : List s.Val) : Prop :=
  ∀ v : s.Val, (c ⟨s, .val s.ty v⟩).eval o = (joinList s.sv v l >>= fun v' => .ok ⟨s, .val s.ty v'⟩)

/-- A call contributes the operations computed by `C` (which may ask questions): it adds them to whatever the
pair was assembled from, by applying operations or joining values in any order. -/
def Call.Contributes (s : StatInst E) (okOp : StatOp s.sv → Prop) (c : Call E Q Ent)
    (C : Prog E Q Ent (List (StatOp s.sv))) : Prop :=
  ∀ (o : Oracle E Q Ent) (v : s.Val) (L : List (StatOp s.sv)) (p' : Pair E), Assembles s.sv okOp v L →
    (c ⟨s, .val s.ty v⟩).eval o = .ok p' →
    ∃ ops v', C.eval o = .ok ops ∧ p' = ⟨s, .val s.ty v'⟩ ∧ Assembles s.sv okOp v' (L ++ ops)

/-- Two queriers with the same sources: streams and global relations added in another order, children listed in
another order. -/
structure SameSources (J J' : Joined E Q Ent) : Prop where
  isStat : J.world.isStat = J'.world.isStat
  defaults : J.world.defaults = J'.world.defaults
  placeholder : J.world.placeholder = J'.world.placeholder
  relations : (J.world.relations.getD []).Perm (J'.world.relations.getD [])
  children : ∀ e, ((J.world.children e).getD []).Perm ((J'.world.children e).getD [])
  comp : J.comp.leaves.Perm J'.comp.leaves
  child : J.child.leaves.Perm J'.child.leaves
  rel : J.rel.leaves.Perm J'.rel.leaves

/-- requests about the stats in `good`, and attribute requests -/
def Req.About (good : StatInst E → Prop) : Req E Q Ent → Prop
  | .stat _ _ s => good s
  | .relation _ _ _ s => good s
  | .attr _ _ => True

/-- All sources contribute operations to the stats in `good`, asking only about stats in `good`. -/
structure Joined.Contributing (J : Joined E Q Ent) (A : Addr E) (good : StatInst E → Prop)
    (okOp : (s : StatInst E) → StatOp s.sv → Prop) : Prop where
  /-- registered defaults are themselves assembled from operations -/
  start : ∀ s b, good s → J.world.startValue A s = .ok b →
    ∃ v L, b = .val s.ty v ∧ Assembles s.sv (okOp s) v L
  stat : ∀ e q s, good s → ∀ c ∈ J.statCalls e q, ∃ C : Prog E Q Ent (List (StatOp s.sv)),
    c.Contributes s (okOp s) C ∧ C.Trusts (Req.About good)
  relation : ∀ a b q s, good s → ∀ c ∈ J.relationCalls a b q, ∃ C : Prog E Q Ent (List (StatOp s.sv)),
    c.Contributes s (okOp s) C ∧ C.Trusts (Req.About good)
  attr : ∀ e a, ∀ c ∈ J.attrCalls e a, c.Trusts (Req.About good)

/-- a source added by a builder method: to the components, the children or the relations of a query -/
inductive Source (E : Env) (Q Ent : Type) where
  | comp (st : CStream E Q Ent)
  | child (st : CStream E Q Ent)
  | rel (st : CStream E Q Ent)

/-- the sources of each kind, in the order in which they were added -/
def Source.comps (l : List (Source E Q Ent)) : List (CStream E Q Ent) :=
  l.filterMap fun | .comp st => some st | _ => none
def Source.childs (l : List (Source E Q Ent)) : List (CStream E Q Ent) :=
  l.filterMap fun | .child st => some st | _ => none
def Source.rels (l : List (Source E Q Ent)) : List (CStream E Q Ent) :=
  l.filterMap fun | .rel st => some st | _ => none

/-- the builder methods of `JoinedQuerier`, one after the other -/
def Joined.add (J : Joined E Q Ent) : Source E Q Ent → Joined E Q Ent
  | .comp st => J.withComponent st
  | .child st => J.withChildren st
  | .rel st => J.withRelation st

/-- the first builder method, on `StatQuery` -/
def World.add (w : World E Q Ent) : Source E Q Ent → Joined E Q Ent
  | .comp st => w.withComponent st
  | .child st => w.withChildren st
  | .rel st => w.withRelation st

end BSQ
