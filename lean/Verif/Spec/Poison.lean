import Verif.Model.Poison
import Verif.Spec.Ledger
/-!
# The cache and its lock, seen from outside
-/
namespace BSQ
variable {E : Env} {K : Type} [DecidableEq K]

/-- the keys in the cache, or `none` once the lock is poisoned -/
abbrev Kept (K : Type) := Option (List K)

namespace Kept

/-- `n` values are visited; user code panics at one of them -/
def Breaks (failsAt : Option Nat) (n : Nat) : Prop := ∃ i, failsAt = some i ∧ i < n

open Classical in
/-- what a call does to the keys, how many values it leaks, and whether it returns.  A poisoned cache never returns.
Poisoning leaks every value that was still in the cache. -/
noncomputable def step (ty : K → E.U) : Kept K → POp K → Kept K × Nat × Bool
  | none, _ => (none, 0, false)
  | some ks, .cachePair k fails =>
    if fails = true ∨ ¬ Storable (E.layout (ty k)) then (none, ks.length, false)
    else if k ∈ ks then (some ks, 1, true) else (some (ks ++ [k]), 0, true)
  | some ks, .lookup k fails => (some ks, 0, !(decide (k ∈ ks) && fails))
  | some ks, .debug _ failsAt => (some ks, 0, !decide (Breaks failsAt ks.length))
  | some ks, .clear _ failsAt =>
    if Breaks failsAt ks.length then (none, ks.length - (failsAt.getD 0 + 1), false) else (some [], 0, true)

/-- all of a program -/
noncomputable def runFrom (ty : K → E.U) (ks : Kept K) : List (POp K) → Kept K × Nat × List Bool
  | [] => (ks, 0, [])
  | o :: os =>
    let r := step ty ks o
    let rest := runFrom ty r.1 os
    (rest.1, r.2.1 + rest.2.1, r.2.2 :: rest.2.2)

open Classical in
/-- the cache is dropped: how many values leak, and whether the drop returns -/
noncomputable def finish (failsAt : Option Nat) : Kept K → Nat × Bool
  | none => (0, false)
  | some ks => if Breaks failsAt ks.length then (ks.length - (failsAt.getD 0 + 1), false) else (0, true)

end Kept
end BSQ
