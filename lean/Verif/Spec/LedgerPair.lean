import Verif.Model.LedgerPair
import Verif.Spec.Ledger
/-!
# What programs with pairs should and may do
-/
namespace BSQ
variable {E : Env}

/-- The rule the compiler would enforce if the lifetime of the returned reference were that of `self`: a reference is
only used until the next use of its pair.  `b v` is the pair that `v` may currently refer into. -/
def PairOp.Scoped (b : Nat → Option Nat) : List (PairOp E) → Prop
  | [] => True
  | .new _ :: os => Scoped b os
  | .use v :: os => (b v).isSome = true ∧ Scoped b os
  | .cast v i _ :: os | .castStat v i _ _ :: os =>
    Scoped (fun w => if w = v then some i else if b w = some i then none else b w) os
  | .look i :: os | .intoResult i _ :: os | .assign i _ :: os | .move i :: os | .drop i :: os =>
    Scoped (fun w => if b w = some i then none else b w) os

/-- the stats of the pairs in scope -/
abbrev KPairs (E : Env) := List (Option (StatInst E))

namespace KPairs

/-- what each step does to the pairs, and how many values it leaks: one for each pair that goes out of scope, is
assigned to, or is asked for a value of another stat type or of a stat type that does not fit in a buffer -/
def step (ks : KPairs E) : PairOp E → KPairs E × Nat
  | .new s => (if Storable (E.layout s.ty) then ks ++ [some s] else ks, 0)
  | .look _ | .cast _ _ _ | .castStat _ _ _ _ | .use _ => (ks, 0)
  | .intoResult i T =>
    match ks[i]? with
    | some (some s) => (ks.set i none, if s.vt = T ∧ Storable (E.statLayout T) then 0 else 1)
    | _ => (ks, 0)
  | .assign i s =>
    match ks[i]? with
    | some (some _) => if Storable (E.layout s.ty) then (ks.set i (some s), 1) else (ks, 0)
    | _ => (ks, 0)
  | .move i =>
    match ks[i]? with
    | some (some s) => (ks.set i none ++ [some s], 0)
    | _ => (ks, 0)
  | .drop i =>
    match ks[i]? with
    | some (some _) => (ks.set i none, 1)
    | _ => (ks, 0)

/-- how many values are not released at the end, when the pairs still in scope go away -/
def leaks (ks : KPairs E) : List (PairOp E) → Nat
  | [] => ks.countP Option.isSome
  | o :: os => (ks.step o).2 + leaks (ks.step o).1 os

end KPairs
end BSQ
