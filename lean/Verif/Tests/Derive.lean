import Verif.Model.Derive
/-!
# tests/derive.rs on the model (tests, not proofs)
-/
namespace BSQ.Tests.DeriveStat
open Derive

abbrev stats : Option Impl := enum [⟨"A", .none, false, true⟩, ⟨"B", .none, false, true⟩,
  ⟨"C", .none, false, true⟩, ⟨"D", .none, false, true⟩]
abbrev numStats : Option Impl := enum [⟨"E", .lit 2, false, true⟩, ⟨"F", .lit 0, false, true⟩,
  ⟨"G", .none, false, true⟩, ⟨"H", .lit 3, false, true⟩]

/-- `from_index(as_index(&v)) == v` -/
def back (d : Option Impl) (i : Nat) : Option (Res Nat) := do
  let d ← d
  let x ← d.asIndex i
  pure (d.fromIndex x)

example : ∀ i < 4, back stats i = some (.ok i) := by decide
example : ∀ i < 4, back numStats i = some (.ok i) := by decide
example : stats.map (·.values.length) = some 4 := by decide
example : numStats.map (·.values.length) = some 4 := by decide
example : stats.map (fun d => d.values.map d.name) = some [some "A", some "B", some "C", some "D"] := by decide
example : numStats.map (fun d => d.values.map d.name) = some [some "E", some "F", some "G", some "H"] := by decide
example : back (some (unitStruct "X")) 0 = some (.ok 0) := by decide
example : (unitStruct "X").values.length = 1 := by decide
example : (unitStruct "X").name 0 = some "X" := by decide

end BSQ.Tests.DeriveStat
