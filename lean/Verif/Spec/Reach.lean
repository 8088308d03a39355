import Verif.Spec.Querier
import Mathlib.Data.List.Forall2
/-!
# What a request depends on
-/
namespace BSQ
variable {E : Env} {Q Ent α : Type}

/-- the code may ask `r'`, for some answers to its earlier questions -/
def Prog.MayAsk (r' : Req E Q Ent) : Prog E Q Ent α → Prop
  | ret _ => False
  | fail _ => False
  | ask r k => r' = r ∨ ∃ x, MayAsk r' (k x)
  | attempt r k => r' = r ∨ ∃ x, MayAsk r' (k x)
  | clear k => MayAsk r' k
  | store _ _ _ k => MayAsk r' k

namespace Joined
variable (J J' : Joined E Q Ent)

/-- user code run for a request may ask `r'` -/
def MayAsk (r' : Req E Q Ent) : Req E Q Ent → Prop
  | .stat e q _ => ∃ c ∈ J.statCalls e q, ∃ p, (c p).MayAsk r'
  | .relation a b q _ => ∃ c ∈ J.relationCalls a b q, ∃ p, (c p).MayAsk r'
  | .attr e a => ∃ c ∈ J.attrCalls e a, c.MayAsk r'

/-- the request is about one of the entities `X`, or about the parent of one -/
def About (X : Ent → Prop) : Req E Q Ent → Prop
  | .stat e _ _ => X e ∨ ∃ c ∈ (J.world.children e).getD [], X c
  | .relation a b _ _ => X a ∨ X b
  | .attr e _ => X e ∨ ∃ c ∈ (J.world.children e).getD [], X c

/-- the request is about one of the entities `X` or the parent of one, or user code run for it may make such a
request, directly or in turn -/
inductive Reaches (X : Ent → Prop) : Req E Q Ent → Prop
  | here {r : Req E Q Ent} (h : J.About X r) : Reaches X r
  | asks {r r' : Req E Q Ent} (h : J.MayAsk r' r) (h' : Reaches X r') : Reaches X r

/-- a query over the same kind of components with the same streams, in a world where the components of entities not in
`X` are the same -/
def _root_.BSQ.CStream.SameOutside (X : Ent → Prop) (st st' : CStream E Q Ent) : Prop :=
  ∃ query' : Ent → Option st.Item, st' = { st with query := query' } ∧ ∀ e, ¬ X e → query' e = st.query e

/-- The world changed at the entities `X` only: they were spawned or despawned, components were added to them, removed
or changed, they became or ceased to be `StatEntity`, their children changed. -/
structure ChangedAt (X : Ent → Prop) : Prop where
  isStat : ∀ e, ¬ X e → J'.world.isStat e = J.world.isStat e
  children : ∀ e, ¬ X e → J'.world.children e = J.world.children e
  defaults : J'.world.defaults = J.world.defaults
  relations : J'.world.relations = J.world.relations
  cached : J'.world.cached = J.world.cached
  placeholder : J'.world.placeholder = J.world.placeholder
  comp : List.Forall₂ (CStream.SameOutside X) J.comp.leaves J'.comp.leaves
  child : List.Forall₂ (CStream.SameOutside X) J.child.leaves J'.child.leaves
  rel : List.Forall₂ (CStream.SameOutside X) J.rel.leaves J'.rel.leaves

end Joined
end BSQ
