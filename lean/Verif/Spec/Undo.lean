import Verif.Spec.StatMap
import Verif.Spec.Unordered
/-!
# Taking modifiers away again
-/
namespace BSQ

/-- The two operations undo each other: wherever they come among other operations, and however values are joined in
between, the outcome is that of the other operations alone, in any order, whenever neither panics. -/
def Cancels {V : Type} (D : StatValue V) (okOp : StatOp D → Prop) (o o' : StatOp D) : Prop :=
  ∀ (s u : Tree D) (v w : V), s.NoReset → u.NoReset → (∀ x ∈ s.leaves, okOp x) →
    s.leaves.Perm (o :: o' :: u.leaves) → s.run = .ok v → u.run = .ok w → v = w

variable {E : Env} {Q : Type} [DecidableEq Q]

/-- the calls that are not about a single one of the given keys -/
def without (K : List (Key E Q)) (g : List (MapOp E Q)) : List (MapOp E Q) :=
  g.filter fun o => match o.key with
    | some k => decide (k ∉ K)
    | none => true

/-- `remove` for each of the keys -/
def removing (K : List (Key E Q)) : List (MapOp E Q) := K.map fun k => .remove k.qual k.stat

end BSQ
