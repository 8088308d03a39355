import Verif.Model.SerdeTypes
/-!
# What saved data give

Used by C143.
-/
namespace BSQ

/-- A datum gives a struct these fields: by name, each name once, in any order and among fields of other names; or by
position, with more behind them unless the format objects to that. -/
inductive GivesFields (f : Format) (parts : List (String × Data)) : Data → Prop
  | named (fs : List (String × Data))
      (h : ∀ p ∈ parts, ∃ before after, fs = before ++ p :: after ∧ ∀ x ∈ before ++ after, x.1 ≠ p.1) :
      GivesFields f parts (.fields fs)
  | positional (more : List Data) (h : f.strictEnd = true → more = []) :
      GivesFields f parts (.seq (parts.map (·.2) ++ more))

/-- a variant of an enum is given by its name or by its number -/
def IsVariant (name : String) (number : Nat) (g : String ⊕ Nat) : Prop := g = .inl name ∨ g = .inr number

/-- a datum gives a fraction: numerator and denominator, with more behind them unless the format objects to that; the
denominator is not zero -/
def GivesFrac (f : Format) (t : IntTy) (x : Frac) (d : Data) : Prop :=
  (∃ more, d = .seq (.int x.num :: .int x.den :: more) ∧ (f.strictEnd = true → more = [])) ∧
    t.InRange x.num ∧ t.InRange x.den ∧ x.den ≠ 0

end BSQ
