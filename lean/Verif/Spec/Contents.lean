import Verif.Spec.Nesting
import Verif.Spec.Overlap
import Mathlib.Logic.Relation
/-!
# What queries leave in the cache

Used by C116.
-/
namespace BSQ
variable {E : Env} {Q Ent : Type}

/-- answering `r` involves answering `r'`: it is `r` itself, or made for it, directly or by a request made for it -/
def Joined.Needs (A : Addr E) (J : Joined E Q Ent) (r' r : Req E Q Ent) : Prop :=
  Relation.ReflTransGen (J.Nests A) r' r

/-- the query has returned, or panicked, without exhausting its depth -/
def Thread.Done (t : Thread E Q Ent) : Prop :=
  (∃ x, t.code = .ret x) ∨ ∃ e, e ≠ .fuel ∧ t.code = .fail e

end BSQ
