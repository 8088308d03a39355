import Verif.Proofs.Qualifier
/-!
# C01–C05: qualifier matching

`Q` is any flag type whose operators are set operations (`FlagSet`): every integer / bitflags width
(`BitVec w`) and `bool` are instances.
-/
namespace BSQ
open FlagSpec
variable {Q : Type} [BitFlags Q] [FlagSet Q]

/-- **C01** `Aggregate(x)` is matched iff all of `all_of` is in `x` and `any_of` is empty or meets `x`.
Both entry points (`qualifies_as`, `qualify`) agree. -/
theorem C01_aggregate_match (q : Qualifier Q) (x : Q) :
    (q.qualifiesAs (.aggregate x) = true ↔
      ((∀ f, FlagSet.has q.allOf f → FlagSet.has x f) ∧
        ((∀ f, ¬ FlagSet.has q.anyOf f) ∨ ∃ f, FlagSet.has q.anyOf f ∧ FlagSet.has x f)))
    ∧ QualifierQuery.qualify (.aggregate x) q = q.qualifiesAs (.aggregate x) :=
  ⟨aggregate_iff q x, rfl⟩

/-- C01 instantiated to every integer / bitflags width, stated on bits. -/
theorem C01_aggregate_match_bits {w : Nat} (q : Qualifier (BitVec w)) (x : BitVec w) :
    q.qualifiesAs (.aggregate x) = true ↔
      ((∀ i : Fin w, q.allOf[i.val] = true → x[i.val] = true) ∧
        ((∀ i : Fin w, q.anyOf[i.val] = false) ∨
          ∃ i : Fin w, q.anyOf[i.val] = true ∧ x[i.val] = true)) := by
  have h := (C01_aggregate_match q x).1
  simp only [FlagSet.has, Bool.not_eq_true] at h
  exact h

/-- **C02** `Exact{any_of,all_of}` is matched iff `all_of` is the same set and `any_of` covers the
queried `any_of`. -/
theorem C02_exact_match (q : Qualifier Q) (a b : Q) :
    (q.qualifiesAs (.exact a b) = true ↔
      ((∀ f, FlagSet.has q.allOf f ↔ FlagSet.has b f) ∧
        (∀ f, FlagSet.has a f → FlagSet.has q.anyOf f)))
    ∧ QualifierQuery.qualify (.exact a b) q = q.qualifiesAs (.exact a b) :=
  ⟨exact_iff q a b, rfl⟩

/-- **C03** widening an aggregate query keeps every match. -/
theorem C03_aggregate_monotone (q : Qualifier Q) (x y : Q)
    (hxy : ∀ f, FlagSet.has x f → FlagSet.has y f)
    (h : q.qualifiesAs (.aggregate x) = true) : q.qualifiesAs (.aggregate y) = true := by
  rw [aggregate_iff] at *
  refine ⟨fun f hf => hxy f (h.1 f hf), h.2.imp id ?_⟩
  rintro ⟨f, h1, h2⟩
  exact ⟨f, h1, hxy f h2⟩

/-- **C03** the unqualified modifier applies to every aggregate query. -/
theorem C03_none_always_applies (x : Q) :
    (Qualifier.none : Qualifier Q).qualifiesAs (.aggregate x) = true
    ∧ QualifierQuery.qualifiesNone (.aggregate x) = true := by
  have : (Qualifier.none : Qualifier Q).qualifiesAs (.aggregate x) = true := by
    rw [aggregate_iff]
    exact ⟨fun f hf => absurd hf (has_none f), Or.inl has_none⟩
  exact ⟨this, this⟩

/-- **C03** the empty aggregate query (`QualifierQuery::none()`) is matched by the unqualified modifier
only. -/
theorem C03_none_query_only_none (q : Qualifier Q) :
    q.qualifiesAs QualifierQuery.none = true ↔ q = Qualifier.none := by
  constructor
  · intro h
    rw [QualifierQuery.none, aggregate_iff] at h
    obtain ⟨h1, h2⟩ := h
    have ha : q.allOf = QualifierFlag.none :=
      FlagSet.ext fun f => ⟨fun hf => h1 f hf, fun hf => absurd hf (has_none f)⟩
    have hb : q.anyOf = QualifierFlag.none := by
      rcases h2 with h2 | ⟨f, _, h3⟩
      · exact (empty_iff _).mp h2
      · exact absurd h3 (has_none f)
    cases q; simp_all [Qualifier.none]
  · rintro rfl; exact (C03_none_always_applies _).1

/-- **C04** the constructors hold exactly the given flags on one side and nothing on the other. -/
theorem C04_constructors (q : Q) (x : Q) :
    ((Qualifier.ofAll q).qualifiesAs (.aggregate x) = true ↔ ∀ f, FlagSet.has q f → FlagSet.has x f)
    ∧ ((Qualifier.ofAny q).qualifiesAs (.aggregate x) = true ↔
        ((∀ f, ¬ FlagSet.has q f) ∨ ∃ f, FlagSet.has q f ∧ FlagSet.has x f)) := by
  constructor
  · rw [aggregate_iff]
    exact ⟨fun h => h.1, fun h => ⟨h, Or.inl has_none⟩⟩
  · rw [aggregate_iff]
    exact ⟨fun h => h.2, fun h => ⟨fun f hf => absurd hf (has_none f), h⟩⟩

/-- **C04** `and_all_of(f)` adds exactly the requirement that the query contains `f`. -/
theorem C04_and_all_of (q : Qualifier Q) (g x : Q) :
    (q.andAllOf g).qualifiesAs (.aggregate x) = true ↔
      (q.qualifiesAs (.aggregate x) = true ∧ ∀ f, FlagSet.has g f → FlagSet.has x f) := by
  simp only [aggregate_iff, AggMatches, Qualifier.andAllOf, Within, has_bor]
  constructor
  · rintro ⟨h1, h2⟩
    exact ⟨⟨fun f hf => h1 f (Or.inl hf), h2⟩, fun f hf => h1 f (Or.inr hf)⟩
  · rintro ⟨⟨h1, h2⟩, h3⟩
    exact ⟨fun f hf => hf.elim (h1 f) (h3 f), h2⟩

/-- **C04** `and_any_of(g)` extends the alternatives by `g`: the result matches iff the old `all_of` is
met and the query meets the old alternatives or `g` (or both alternatives are empty). -/
theorem C04_and_any_of (q : Qualifier Q) (g x : Q) :
    (q.andAnyOf g).qualifiesAs (.aggregate x) = true ↔
      ((∀ f, FlagSet.has q.allOf f → FlagSet.has x f) ∧
        (((∀ f, ¬ FlagSet.has q.anyOf f) ∧ ∀ f, ¬ FlagSet.has g f) ∨
          (∃ f, FlagSet.has q.anyOf f ∧ FlagSet.has x f) ∨ ∃ f, FlagSet.has g f ∧ FlagSet.has x f)) := by
  simp only [aggregate_iff, AggMatches, Qualifier.andAnyOf, Within, NoFlags, Meets, has_bor]
  constructor
  · rintro ⟨h1, h2⟩
    refine ⟨h1, ?_⟩
    rcases h2 with h2 | ⟨f, h | h, h'⟩
    · exact Or.inl ⟨fun f hf => h2 f (Or.inl hf), fun f hf => h2 f (Or.inr hf)⟩
    · exact Or.inr (Or.inl ⟨f, h, h'⟩)
    · exact Or.inr (Or.inr ⟨f, h, h'⟩)
  · rintro ⟨h1, h2⟩
    refine ⟨h1, ?_⟩
    rcases h2 with ⟨h2, h3⟩ | ⟨f, h, h'⟩ | ⟨f, h, h'⟩
    · exact Or.inl fun f hf => hf.elim (h2 f) (h3 f)
    · exact Or.inr ⟨f, Or.inl h, h'⟩
    · exact Or.inr ⟨f, Or.inr h, h'⟩

/-- **C04** `is_none` iff both sets are empty. -/
theorem C04_is_none (q : Qualifier Q) :
    q.isNone = true ↔ ((∀ f, ¬ FlagSet.has q.anyOf f) ∧ ∀ f, ¬ FlagSet.has q.allOf f) := by
  simp only [Qualifier.isNone, Bool.and_eq_true, isNone_iff, NoFlags]

/-- **C05** an exact query rejects every modifier whose `all_of` set differs, in particular the
unqualified one when the query asks for a flag. -/
theorem C05_exact_excludes_general (a b : Q) (f : FlagSet.Flag Q) (hf : FlagSet.has b f) :
    (Qualifier.none : Qualifier Q).qualifiesAs (.exact a b) = false
    ∧ (∀ q : Qualifier Q, ¬ FlagSet.has q.allOf f → q.qualifiesAs (.exact a b) = false) := by
  have key : ∀ q : Qualifier Q, ¬ FlagSet.has q.allOf f → q.qualifiesAs (.exact a b) = false := by
    intro q hq
    rw [← Bool.not_eq_true, exact_iff]
    exact fun h => hq ((h.1 f).mpr hf)
  exact ⟨key _ (has_none f), key⟩

/-- **C05** an exact query is matched by no modifier whose `all_of` differs, be it by lacking a flag or by having
one more. -/
theorem C05_exact_excludes_different (a b : Q) (q : Qualifier Q)
    (hne : ¬ ∀ f, FlagSet.has q.allOf f ↔ FlagSet.has b f) : q.qualifiesAs (.exact a b) = false := by
  rw [← Bool.not_eq_true, exact_iff]
  exact fun h => hne h.1

example : ¬ ∀ f, FlagSet.has (3 : BitVec 8) f ↔ FlagSet.has (1 : BitVec 8) f :=
  fun h => absurd ((h (⟨1, by decide⟩ : Fin 8)).mp (show (3 : BitVec 8)[1] = true by decide))
    (show ¬ (1 : BitVec 8)[1] = true by decide)

/-- **C05** two exact queries for different `all_of` sets share no modifier. -/
theorem C05_exact_disjoint (a b a' b' : Q) (hne : ¬ ∀ f, FlagSet.has b f ↔ FlagSet.has b' f)
    (q : Qualifier Q) : ¬ (q.qualifiesAs (.exact a b) = true ∧ q.qualifiesAs (.exact a' b') = true) := by
  rw [exact_iff, exact_iff]
  rintro ⟨h1, h2⟩
  exact hne fun f => (h1.1 f).symm.trans (h2.1 f)

/-! Non-vacuity: fire = 1, water = 2, magic = 4 (tests/qualifier.rs). -/
example : (Qualifier.ofAll (1#3)).qualifiesAs (.aggregate 5#3) = true := by decide
example : ((Qualifier.ofAny (3#3)).andAllOf 4#3).qualifiesAs (.aggregate 5#3) = true := by decide
example : ((Qualifier.ofAny (3#3)).andAllOf 4#3).qualifiesAs (.aggregate 4#3) = false := by decide
example : (⟨3#3, 4#3⟩ : Qualifier (BitVec 3)).qualifiesAs (.exact 1#3 4#3) = true := by decide
example : ∃ f : FlagSet.Flag (BitVec 3), FlagSet.has (4#3) f := ⟨⟨2, by decide⟩, by simp [FlagSet.has]⟩
/-- A modifier matched by `Exact{none, magic}` need not be matched by `Aggregate(magic)`: alternatives
are not re-checked by exact queries. -/
example : (⟨3#3, 4#3⟩ : Qualifier (BitVec 3)).qualifiesAs (.exact 0#3 4#3) = true ∧
    (⟨3#3, 4#3⟩ : Qualifier (BitVec 3)).qualifiesAs (.aggregate 4#3) = false := by decide

/-- **C141** the methods every flag type gets from its operators are the relations of sets -/
theorem C141_methods (a b : Q) :
    (QualifierFlag.contains a b = true ↔ ∀ f, FlagSet.has b f → FlagSet.has a f) ∧
    (QualifierFlag.intersects a b = true ↔ ∃ f, FlagSet.has a f ∧ FlagSet.has b f) ∧
    (QualifierFlag.isNoneOrIntersects a b = true ↔ (∀ f, ¬ FlagSet.has a f) ∨ ∃ f, FlagSet.has a f ∧ FlagSet.has b f) ∧
    (QualifierFlag.setEquals a b = true ↔ ∀ f, FlagSet.has a f ↔ FlagSet.has b f) ∧
    (QualifierFlag.isNone a = true ↔ ∀ f, ¬ FlagSet.has a f) ∧
    (∀ f, ¬ FlagSet.has (QualifierFlag.none : Q) f) ∧
    (∀ f, FlagSet.has (QualifierFlag.bor a b) f ↔ FlagSet.has a f ∨ FlagSet.has b f) := by
  refine ⟨contains_iff a b, intersects_iff a b, ?_, setEquals_iff a b, isNone_iff a, has_none, has_bor a b⟩
  simp only [QualifierFlag.isNoneOrIntersects, Bool.or_eq_true, isNone_iff, intersects_iff]
  rfl

/-- C141 on bits, for every integer type and `bitflags` struct -/
theorem C141_bits {w : Nat} (a b : BitVec w) :
    (QualifierFlag.contains a b = true ↔ ∀ i : Fin w, b[i.val] = true → a[i.val] = true) ∧
    (QualifierFlag.intersects a b = true ↔ ∃ i : Fin w, a[i.val] = true ∧ b[i.val] = true) ∧
    (QualifierFlag.setEquals a b = true ↔ a = b) ∧
    (QualifierFlag.isNone a = true ↔ a = 0) := by
  obtain ⟨h1, h2, -, h4, h5, -, -⟩ := C141_methods a b
  refine ⟨h1, h2, h4.trans ((same_iff_eq a b)), h5.trans (empty_iff a)⟩

/-- C141: how the methods depend on each other -/
theorem C141_laws (a b c : Q) :
    (QualifierFlag.setEquals a b = true ↔ QualifierFlag.contains a b = true ∧ QualifierFlag.contains b a = true) ∧
    QualifierFlag.intersects a b = QualifierFlag.intersects b a ∧
    (QualifierFlag.contains c (QualifierFlag.bor a b) = true ↔
      QualifierFlag.contains c a = true ∧ QualifierFlag.contains c b = true) ∧
    (QualifierFlag.contains a b = true → QualifierFlag.isNone b = false → QualifierFlag.intersects a b = true) ∧
    (QualifierFlag.isNone a = true ↔ QualifierFlag.intersects a a = false) := by
  refine ⟨?_, ?_, ?_, ?_, ?_⟩
  · rw [setEquals_iff, contains_iff, contains_iff]
    exact ⟨fun h => ⟨fun f => (h f).2, fun f => (h f).1⟩, fun h f => ⟨h.2 f, h.1 f⟩⟩
  · rw [Bool.eq_iff_iff, intersects_iff, intersects_iff]
    exact ⟨fun ⟨f, h⟩ => ⟨f, h.2, h.1⟩, fun ⟨f, h⟩ => ⟨f, h.2, h.1⟩⟩
  · rw [contains_iff, contains_iff, contains_iff]
    exact ⟨fun h => ⟨fun f hf => h f ((has_bor a b f).2 (.inl hf)), fun f hf => h f ((has_bor a b f).2 (.inr hf))⟩,
      fun h f hf => ((has_bor a b f).1 hf).elim (h.1 f) (h.2 f)⟩
  · intro h hn
    rw [contains_iff] at h
    rw [← Bool.not_eq_true, isNone_iff] at hn
    rw [intersects_iff]
    obtain ⟨f, hf⟩ := Classical.not_forall_not.1 hn
    exact ⟨f, h f hf, hf⟩
  · rw [← Bool.not_eq_true, isNone_iff, intersects_iff]
    exact ⟨fun h ⟨f, hf, _⟩ => h f hf, fun h f hf => h ⟨f, hf, hf⟩⟩

example : QualifierFlag.contains (5 : BitVec 8) 4 = true ∧ QualifierFlag.contains (5 : BitVec 8) 6 = false ∧
    QualifierFlag.intersects (5 : BitVec 8) 6 = true ∧ QualifierFlag.intersects (5 : BitVec 8) 2 = false ∧
    QualifierFlag.contains (5 : BitVec 8) 0 = true ∧ QualifierFlag.intersects (5 : BitVec 8) 0 = false := by decide

end BSQ
