import Verif.Model.LedgerWild
import Verif.Spec.Ledger
import Verif.Spec.Flags
/-!
# Which steps read a value at another type than its own
-/
namespace BSQ
variable {E : Env} {Q : Type}

/-- a method that reads the whole range of a stat -/
def WOp.ReadsRange : WOp E Q → Prop
  | .op (.iter _ _) => True
  | .op (.query _ _ _ _) => True
  | _ => False

/-- the first `n + 1` when something panics at number `n` -/
def upTo {α : Type} (l : List α) : Option Nat → List α
  | none => l
  | some n => l.take (n + 1)

variable [Ord Q] [BitFlags Q] [FlagSet Q] (A : Addr E)

open Classical in
/-- the range that is searched for the stat contains, among the entries that are read, one with a value of another
type -/
def Misreads (st : LState E Q) : WOp E Q → Prop
  | .op (.iter i s) => ∃ m l e, st.maps[i]? = some m ∧ Vec.slice A m s = .ok l ∧ e ∈ l ∧ e.stat.ty ≠ s.ty
  | .op (.query i q s failsAt) => Storable (E.layout s.ty) ∧ ∃ m l e, st.maps[i]? = some m ∧
      Vec.slice A m s = .ok l ∧ e ∈ upTo (l.filter fun e => decide (FlagSpec.Matches e.qual q)) failsAt ∧
      e.stat.ty ≠ s.ty
  | _ => False

end BSQ
