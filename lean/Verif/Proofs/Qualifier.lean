import Verif.Spec.Flags
/-! Helper lemmas for qualifier matching. -/
namespace BSQ
open FlagSpec
variable {Q : Type} [BitFlags Q] [FlagSet Q]

theorem same_iff_eq (a b : Q) : Same a b ↔ a = b :=
  ⟨fun h => FlagSet.ext h, fun h => by subst h; intro f; exact Iff.rfl⟩

theorem empty_iff (a : Q) : NoFlags a ↔ a = BitFlags.dflt := by
  constructor
  · intro h
    apply FlagSet.ext
    intro f
    exact ⟨fun hf => absurd hf (h f), fun hf => absurd hf (FlagSet.has_default f)⟩
  · rintro rfl f; exact FlagSet.has_default f

theorem contains_iff (a b : Q) : QualifierFlag.contains a b = true ↔ Within b a := by
  simp only [QualifierFlag.contains, decide_eq_true_eq]
  constructor
  · intro h f hf
    rw [← h] at hf
    exact ((FlagSet.has_and _ _ _).mp hf).1
  · intro h
    apply FlagSet.ext
    intro f
    rw [FlagSet.has_and]
    exact ⟨fun hf => hf.2, fun hf => ⟨h f hf, hf⟩⟩

theorem isNone_iff (a : Q) : QualifierFlag.isNone a = true ↔ NoFlags a := by
  simp only [QualifierFlag.isNone, decide_eq_true_eq, empty_iff]

theorem intersects_iff (a b : Q) : QualifierFlag.intersects a b = true ↔ Meets a b := by
  simp only [QualifierFlag.intersects, Bool.not_eq_true', decide_eq_false_iff_not]
  rw [← empty_iff]
  simp only [NoFlags, Meets, FlagSet.has_and]
  exact Classical.not_forall_not

theorem setEquals_iff (a b : Q) : QualifierFlag.setEquals a b = true ↔ Same a b := by
  simp only [QualifierFlag.setEquals, decide_eq_true_eq, same_iff_eq]

theorem aggregate_iff (q : Qualifier Q) (x : Q) :
    q.qualifiesAs (.aggregate x) = true ↔ AggMatches q x := by
  simp only [Qualifier.qualifiesAs, QualifierFlag.isNoneOrIntersects, Bool.and_eq_true,
    Bool.or_eq_true, contains_iff, isNone_iff, intersects_iff, AggMatches]

theorem exact_iff (q : Qualifier Q) (a b : Q) :
    q.qualifiesAs (.exact a b) = true ↔ ExactMatches q a b := by
  simp only [Qualifier.qualifiesAs, Bool.and_eq_true, contains_iff, ExactMatches, same_iff_eq,
    decide_eq_true_eq]
  exact And.comm

theorem has_none (f : FlagSet.Flag Q) : ¬ FlagSet.has (QualifierFlag.none : Q) f :=
  FlagSet.has_default f
theorem has_bor (a b : Q) (f) :
    FlagSet.has (QualifierFlag.bor a b) f ↔ FlagSet.has a f ∨ FlagSet.has b f := FlagSet.has_or a b f

end BSQ
