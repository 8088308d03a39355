import Verif.Model.Hostile
import Verif.Spec.Ledger
/-!
# What may be expected when user code does whatever it likes
-/
namespace BSQ
variable {E : Env} {Q : Type}

/-- a method that reads all entries of a stat -/
def XOp.ReadsRange : XOp E Q → Prop
  | .iter _ _ _ => True
  | .query _ _ _ => True
  | _ => False

/-- stats in order, those of entries with different qualifiers under one stat next to each other -/
def StatsInOrder (A : Addr E) (l : List (Entry E Q Cell)) : Prop := l.Pairwise fun a b => a.stat.cmp A b.stat ≠ .gt

/-- sorting puts the stats in order, and iterators given to `extend` do not panic -/
def XOp.Orderly (A : Addr E) : XOp E Q → Prop
  | .extend _ _ _ fails σ => fails = false ∧ ∀ l, StatsInOrder A (σ.apply l)
  | .fromIter _ _ _ _ σ => ∀ l, StatsInOrder A (σ.apply l)
  | _ => True

/-- a step that may lose a value: an insertion, or a query during which user code panics -/
def XOp.MayLeak : XOp E Q → Prop
  | .insert _ _ _ _ => True
  | .query _ _ v => ∃ n j q, v n j q = .joinPanics ∨ v n j q = .panics
  | _ => False

/-- the map and the stat that a step with one key is about -/
def XOp.about : XOp E Q → Option (Nat × StatInst E)
  | .insert i _ s _ | .get i s _ | .modify i _ s _ _ | .remove i s _ => some (i, s)
  | _ => none

end BSQ
