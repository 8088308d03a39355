import Verif.Spec.Flags
/-!
# What a qualifier asks for, written without queries
-/
namespace BSQ.FlagSpec
variable {Q : Type} [BitFlags Q] [FlagSet Q]

/-- there is a set with just the flag, for every flag -/
def Singles (Q : Type) [BitFlags Q] [FlagSet Q] : Prop :=
  ∀ f : FlagSet.Flag Q, ∃ x : Q, ∀ g, FlagSet.has x g ↔ g = f

/-- The flag must be there for the modifier to apply: it is in `all_of`, or the only one in `any_of`. -/
def Needed (k : Qualifier Q) (f : FlagSet.Flag Q) : Prop :=
  FlagSet.has k.allOf f ∨ (FlagSet.has k.anyOf f ∧ ∀ g, FlagSet.has k.anyOf g → g = f)

/-- The flag is one of several of which one must be there besides those that are needed: `any_of` has it and another
one, and none that `all_of` asks for anyway. -/
def Choice (k : Qualifier Q) (f : FlagSet.Flag Q) : Prop :=
  FlagSet.has k.anyOf f ∧ (∃ g, g ≠ f ∧ FlagSet.has k.anyOf g) ∧ ¬ Meets k.anyOf k.allOf

/-- The two ask for the same flags, however they are written. -/
def Interchangeable (k k' : Qualifier Q) : Prop :=
  (∀ f, Needed k f ↔ Needed k' f) ∧ ∀ f, Choice k f ↔ Choice k' f

/-- `k'` asks for no more than `k` does: whatever `k` needs, together with any of its choices, has all that `k'`
needs and one of its choices. -/
def AsGeneral (k k' : Qualifier Q) : Prop :=
  ((∀ f, ¬ Choice k f) → (∀ g, Needed k' g → Needed k g) ∧ ((∀ g, ¬ Choice k' g) ∨ ∃ g, Choice k' g ∧ Needed k g)) ∧
  ∀ f, Choice k f → (∀ g, Needed k' g → Needed k g ∨ g = f) ∧
    ((∀ g, ¬ Choice k' g) ∨ ∃ g, Choice k' g ∧ (Needed k g ∨ g = f))

end BSQ.FlagSpec
