import Verif.Model.LedgerQual
import Verif.Spec.Ledger
/-!
# How many qualifiers a program leaks
-/
namespace BSQ
variable {E : Env} {Q : Type} [DecidableEq Q]

namespace KState

/-- one for a `remove` that finds its key in the map it is called on, none for anything else -/
def forgets (ks : KState E Q) : LOp E Q → Nat
  | .remove i q s => if ⟨s, q⟩ ∈ ks.getD i [] then 1 else 0
  | _ => 0

/-- how many a whole program forgets, `ks` being the keys stored when it begins -/
noncomputable def forgotten [BitFlags Q] [FlagSet Q] (ks : KState E Q) : List (LOp E Q) → Nat
  | [] => 0
  | o :: os => ks.forgets o + forgotten (ks.step o).1 os

end KState
end BSQ
