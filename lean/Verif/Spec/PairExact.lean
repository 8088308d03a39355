import Verif.Spec.LedgerPair
/-!
# When a reference into a pair dangles
-/
namespace BSQ
variable {E : Env}

/-- what a variable for references holds -/
inductive RefIs where
  | absent
  /-- a reference into the pair in a variable, which nobody touched since -/
  | into (i : Nat)
  | dangling

namespace PairOp

/-- the pair that a step touches, if it is there: every access that is not through a reference.  An assignment of a
stat whose value does not fit panics before. -/
def touches (ks : KPairs E) : PairOp E → Option Nat
  | .new _ | .use _ => none
  | .look i | .cast _ i _ | .castStat _ i _ _ | .intoResult i _ | .move i | .drop i =>
    if (ks[i]?).join.isSome then some i else none
  | .assign i s => if (ks[i]?).join.isSome ∧ Storable (E.layout s.ty) then some i else none

/-- what a reference becomes when `t` is touched -/
def aged (t : Option Nat) : RefIs → RefIs
  | .into i => if t = some i then .dangling else .into i
  | r => r

open Classical in
/-- what the variables for references hold after a step: a cast gives a reference if the pair has that type (or stat) -/
noncomputable def refsAfter (ks : KPairs E) (b : Nat → RefIs) (o : PairOp E) (w : Nat) : RefIs :=
  match o with
  | .cast v i T =>
    if w = v then
      if ∃ s, ks[i]? = some (some s) ∧ s.vt = T ∧ Storable (E.statLayout T) ∧ ∃ x, E.fromIndex T s.index = .ok x
      then .into i else .absent
    else aged (o.touches ks) (b w)
  | .castStat v i T x =>
    if w = v then
      if ks[i]? = some (some (E.asEntry x)) ∧ Storable (E.statLayout T) then .into i else .absent
    else aged (o.touches ks) (b w)
  | o => aged (o.touches ks) (b w)

/-- no step uses a dangling reference -/
def NoDangling (ks : KPairs E) (b : Nat → RefIs) : List (PairOp E) → Prop
  | [] => True
  | o :: os => (∀ v, o = .use v → b v ≠ .dangling) ∧ NoDangling (ks.step o).1 (refsAfter ks b o) os

end PairOp
end BSQ
