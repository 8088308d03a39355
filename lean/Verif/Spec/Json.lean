import Verif.Model.Json
/-!
# What is expected of a value that goes through JSON
-/
namespace BSQ

/-- neither infinite nor NaN -/
def Fl.Finite (x : Fl) : Prop := ∃ q, x = .fin q

/-- Of the valid values (`P`) exactly the finite ones (`Fin`) come back from JSON, as they were; the others are refused
when loading, and never read as something else. -/
structure Codec.ThroughJson {α : Type} (c : Codec α) (P Fin : α → Prop) : Prop where
  kept : ∀ x, P x → Fin x → c.de (c.ser x).json = some x
  lost : ∀ x, ¬ Fin x → c.de (c.ser x).json = none

end BSQ
