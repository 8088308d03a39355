import Verif.Model.LedgerSerde
import Verif.Spec.Ledger
/-!
# Which failures to load lose a value
-/
namespace BSQ
variable {E : Env} {Q : Type} (X : Serde E Q) (sc : DeScope E)

/-- an entry that is fine except for something that follows the value, with a format that objects -/
def Spoiled (d : Data) : Prop :=
  X.fmt.strictEnd = true ∧ ∃ dq n dv extra rest q r s v, d = .seq (dq :: .str n :: dv :: extra :: rest) ∧
    X.deQ dq = some q ∧ sc = .registry r ∧ r n = some s ∧ X.supported s.vt = true ∧ Storable (E.layout s.ty) ∧
    X.de s.ty dv = some v

/-- loading fails at a spoiled entry -/
def LosesOne (d : Data) : Prop :=
  ∃ pre e post, deStruct X.fmt ["inner"] d = some [.seq (pre ++ e :: post)] ∧
    (∀ x ∈ pre, ∃ y, X.deEntry sc x = .ok (some y)) ∧ Spoiled X sc e

end BSQ
