import Verif.Model.StatValue
import Mathlib.Algebra.Order.Group.Int
import Mathlib.Algebra.BigOperators.Group.List.Basic
import Mathlib.Order.Lattice
/-!
# What "unordered" means, independently of any stat type

A stat value is assembled from a default or a base value by applying operations and joining other
values, in an arbitrarily shaped tree.  `Tree.leaves` lists the contributions that went in, in the order
written.  A stat type is *unordered* when the outcome depends on the contributions only up to
permutation.
-/
namespace BSQ

/-- Every way of assembling a stat value. -/
inductive Tree {V : Type} (D : StatValue V) where
  | dflt
  | base (b : D.BaseT)
  | op (t : Tree D) (o : StatOp D)
  | join (l r : Tree D)

/-- `Base` overwrites a value, every other operation contributes to it. -/
def StatOp.IsBase {V : Type} {D : StatValue V} : StatOp D → Prop
  | .base _ => True
  | _ => False

namespace Tree
variable {V : Type} {D : StatValue V}

/-- run the assembly with the crate's operations -/
def run : Tree D → Res V
  | dflt => .ok D.default
  | base b => .ok (D.fromBase b)
  | op t o => t.run >>= fun v => o.writeTo v
  | join l r => l.run >>= fun a => r.run >>= fun b => D.join a b

/-- the contributions, from left to right -/
def leaves : Tree D → List (StatOp D)
  | dflt => []
  | base b => [.base b]
  | op t o => t.leaves ++ [o]
  | join l r => l.leaves ++ r.leaves

/-- no operation overwrites the value assembled so far -/
def NoReset : Tree D → Prop
  | dflt => True
  | base _ => True
  | op t o => t.NoReset ∧ ¬ o.IsBase
  | join l r => l.NoReset ∧ r.NoReset

/-- the straight-line assembly: default, then each operation in turn -/
def ofList (os : List (StatOp D)) : Tree D := os.foldl Tree.op Tree.dflt

/-- the assembly used by queries: default joined with each stat built from one operation -/
def joinAll (os : List (StatOp D)) : Tree D :=
  os.foldl (fun t o => t.join (Tree.op .dflt o)) Tree.dflt
end Tree

/-- What one operation contributes to a numeric stat: `A` addends, `M` multipliers, `B` bounds. -/
inductive Contrib (A M B : Type) where
  | add (a : A)
  | mul (m : M)
  | atLeast (b : B)
  | atMost (b : B)
  deriving DecidableEq, Repr

namespace Contrib
variable {A M B : Type}

/-- the sum of all addends -/
def total [Add A] [Zero A] : List (Contrib A M B) → A
  | [] => 0
  | .add a :: l => a + total l
  | _ :: l => total l

/-- the product of all multipliers -/
def product [Mul M] [One M] : List (Contrib A M B) → M
  | [] => 1
  | .mul m :: l => m * product l
  | _ :: l => product l

/-- the sum of all multipliers (for stats whose multipliers are additive) -/
def multSum [Add M] [Zero M] : List (Contrib A M B) → M
  | [] => 0
  | .mul m :: l => m + multSum l
  | _ :: l => multSum l

/-- the greatest lower bound registered, at least `lo` -/
def floorOf [Max B] (lo : B) : List (Contrib A M B) → B
  | [] => lo
  | .atLeast b :: l => max b (floorOf lo l)
  | _ :: l => floorOf lo l

/-- the least upper bound registered, at most `hi` -/
def capOf [Min B] (hi : B) : List (Contrib A M B) → B
  | [] => hi
  | .atMost b :: l => min b (capOf hi l)
  | _ :: l => capOf hi l

end Contrib

/-- clamp with the lower bound winning -/
def clampTo {B : Type} [Max B] [Min B] (x lo hi : B) : B := max (min x hi) lo

end BSQ

namespace BSQ
/-- joining does not depend on the order of the two operands, including whether it panics -/
def JoinComm {V : Type} (D : StatValue V) : Prop := ∀ a b, D.join a b = D.join b a

/-- both ways of joining three values agree whenever neither panics -/
def JoinAssoc {V : Type} (D : StatValue V) (WF : V → Prop) : Prop :=
  ∀ a b c x y, WF a → WF b → WF c →
    (D.join a b >>= fun ab => D.join ab c) = .ok x →
    (D.join b c >>= fun bc => D.join a bc) = .ok y → x = y

/-- joining with the default value changes nothing and never panics -/
def DefaultUnit {V : Type} (D : StatValue V) (WF : V → Prop) : Prop :=
  ∀ v, WF v → D.join D.default v = .ok v ∧ D.join v D.default = .ok v

/-- Any two ways of assembling a value from permuted contributions agree whenever neither panics. -/
def Unordered {V : Type} (D : StatValue V) (okOp : StatOp D → Prop) : Prop :=
  ∀ (s t : Tree D) (v w : V), s.NoReset → t.NoReset → (∀ o ∈ s.leaves, okOp o) →
    s.leaves.Perm t.leaves → s.run = .ok v → t.run = .ok w → v = w
end BSQ

namespace BSQ
/-- Applying an operation has exactly the same outcome, panics included, as joining the stat value built
from that operation alone. -/
def WriteIsJoin {V : Type} (D : StatValue V) (okV : V → Prop) (okOp : StatOp D → Prop) : Prop :=
  ∀ (o : StatOp D) (v : V), ¬ o.IsBase → okOp o → okV v →
    o.writeTo v = (o.intoStat >>= fun s => D.join v s)

/-- A base value evaluates to itself, directly and after being joined into the default as queries do. -/
def BaseRoundTrip {V : Type} (D : StatValue V) (b : D.BaseT) (out : D.Out) : Prop :=
  D.eval (D.fromBase b) = .ok out ∧ (D.join D.default (D.fromBase b) >>= fun v => D.eval v) = .ok out
end BSQ
