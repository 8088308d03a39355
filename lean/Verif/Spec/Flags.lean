import Verif.Model.Qualifier
/-!
# Specification of flag sets

A flag type is understood through which individual flags a value contains.  `FlagSet` says the type's
`|`, `&`, `Default` and `==` are union, intersection, the empty set and set equality.  The matching rules
are then written directly on sets of flags, without the operators the code uses.
-/
namespace BSQ

class FlagSet (Q : Type) [BitFlags Q] where
  /-- individual flags -/
  Flag : Type
  /-- `has q f`: flag `f` is set in `q` -/
  has : Q → Flag → Prop
  /-- `==` is set equality -/
  ext : ∀ {a b : Q}, (∀ f, has a f ↔ has b f) → a = b
  has_or : ∀ (a b : Q) f, has (BitFlags.bor a b) f ↔ (has a f ∨ has b f)
  has_and : ∀ (a b : Q) f, has (BitFlags.band a b) f ↔ (has a f ∧ has b f)
  has_default : ∀ f, ¬ has (BitFlags.dflt : Q) f

/-- integers / bitflags of any width: flag `i` is bit `i`. -/
instance {w : Nat} : FlagSet (BitVec w) where
  Flag := Fin w
  has q i := q[i.val] = true
  ext h := by
    apply BitVec.eq_of_getElem_eq
    intro i hi
    have := h ⟨i, hi⟩
    exact Bool.eq_iff_iff.mpr this
  has_or a b f := by simp [BitFlags.bor]
  has_and a b f := by simp [BitFlags.band]
  has_default f := by simp [BitFlags.dflt]

/-- `bool` as one flag. -/
instance : FlagSet Bool where
  Flag := Unit
  has q _ := q = true
  ext h := Bool.eq_iff_iff.mpr (h ())
  has_or a b f := by simp [BitFlags.bor]
  has_and a b f := by simp [BitFlags.band]
  has_default f := by simp [BitFlags.dflt]

namespace FlagSpec
variable {Q : Type} [BitFlags Q] [FlagSet Q]

/-- `a ⊆ b` -/
def Within (a b : Q) : Prop := ∀ f, FlagSet.has a f → FlagSet.has b f
/-- no flag set -/
def NoFlags (a : Q) : Prop := ∀ f, ¬ FlagSet.has a f
/-- a common flag exists -/
def Meets (a b : Q) : Prop := ∃ f, FlagSet.has a f ∧ FlagSet.has b f
/-- same flags -/
def Same (a b : Q) : Prop := ∀ f, FlagSet.has a f ↔ FlagSet.has b f

/-- The documented rule for `QualifierQuery::Aggregate(x)` (lib.rs:36-50, qualifier.rs:155-157). -/
def AggMatches (q : Qualifier Q) (x : Q) : Prop :=
  Within q.allOf x ∧ (NoFlags q.anyOf ∨ Meets q.anyOf x)

/-- The documented rule for `QualifierQuery::Exact { any_of, all_of }` (qualifier.rs:159-165). -/
def ExactMatches (q : Qualifier Q) (anyOf allOf : Q) : Prop :=
  Same q.allOf allOf ∧ Within anyOf q.anyOf

end FlagSpec
end BSQ

namespace BSQ.FlagSpec
variable {Q : Type} [BitFlags Q] [FlagSet Q]
/-- The documented matching rule for both kinds of query. -/
def Matches (q : Qualifier Q) : QualifierQuery Q → Prop
  | .aggregate x => AggMatches q x
  | .exact a b => ExactMatches q a b
end BSQ.FlagSpec
