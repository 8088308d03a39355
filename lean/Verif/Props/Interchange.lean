import Verif.Spec.Interchange
import Verif.Props.StatMap
import Mathlib.Logic.Equiv.Basic
/-! # C128: which qualifiers are interchangeable, and which are more general than others -/
set_option linter.unusedSectionVars false
namespace BSQ
open FlagSpec

theorem singles_bits (w : Nat) : Singles (BitVec w) := by
  intro f
  have hf : f.val < w := f.isLt
  refine ⟨BitVec.twoPow w f.val, fun g => ?_⟩
  have hg : g.val < w := g.isLt
  simp only [FlagSet.has, BitVec.getElem_twoPow]
  rw [decide_eq_true_iff]
  exact ⟨fun h => Fin.ext h, fun h => congrArg Fin.val h⟩

theorem singles_bool : Singles Bool := fun _ => ⟨true, fun _ => ⟨fun _ => rfl, fun _ => rfl⟩⟩

section
variable {Q : Type} [BitFlags Q] [FlagSet Q]

/-- matching in terms of what is needed and what can be chosen from -/
theorem aggMatches_iff (k : Qualifier Q) (x : Q) : AggMatches k x ↔
    (∀ f, Needed k f → FlagSet.has x f) ∧ ((∀ f, ¬ Choice k f) ∨ ∃ f, Choice k f ∧ FlagSet.has x f) := by
  constructor
  · rintro ⟨h1, h2⟩
    constructor
    · rintro f (hf | ⟨hf, hone⟩)
      · exact h1 f hf
      · rcases h2 with h2 | ⟨g, hg, hx⟩
        · exact absurd hf (h2 f)
        · rw [← hone g hg]; exact hx
    · by_cases hc : ∃ f, Choice k f
      · obtain ⟨f, hf, ⟨g, hgf, hg⟩, hm⟩ := hc
        rcases h2 with h2 | ⟨j, hj, hx⟩
        · exact absurd hf (h2 f)
        · refine .inr ⟨j, ⟨hj, ?_, hm⟩, hx⟩
          by_cases hjf : j = f
          · exact ⟨g, by rw [hjf]; exact hgf, hg⟩
          · exact ⟨f, fun e => hjf e.symm, hf⟩
      · exact .inl fun f hf => hc ⟨f, hf⟩
  · rintro ⟨h1, h2⟩
    refine ⟨fun f hf => h1 f (.inl hf), ?_⟩
    by_cases hn : NoFlags k.anyOf
    · exact .inl hn
    · right
      unfold NoFlags at hn
      push Not at hn
      obtain ⟨f, hf⟩ := hn
      by_cases hm : Meets k.anyOf k.allOf
      · obtain ⟨g, hg, hg'⟩ := hm
        exact ⟨g, hg, h1 g (.inl hg')⟩
      · by_cases hone : ∀ g, FlagSet.has k.anyOf g → g = f
        · exact ⟨f, hf, h1 f (.inr ⟨hf, hone⟩)⟩
        · push Not at hone
          obtain ⟨g, hg, hgf⟩ := hone
          rcases h2 with h2 | ⟨j, hj, hx⟩
          · exact absurd ⟨hf, ⟨g, hgf, hg⟩, hm⟩ (h2 f)
          · exact ⟨j, hj.1, hx⟩

/-- nothing that can be chosen is needed, and there are at least two things to choose from -/
theorem FlagSpec.Choice.spec {k : Qualifier Q} {f : FlagSet.Flag Q} (h : Choice k f) :
    ¬ Needed k f ∧ ∃ g, g ≠ f ∧ Choice k g := by
  obtain ⟨hf, ⟨g, hgf, hg⟩, hm⟩ := h
  constructor
  · rintro (h | ⟨_, hone⟩)
    · exact hm ⟨f, hf, h⟩
    · exact hgf (hone g hg)
  · exact ⟨g, hgf, hg, ⟨f, fun e => hgf e.symm, hf⟩, hm⟩

/-- there is a set of just the needed flags -/
theorem exists_needed (k : Qualifier Q) : ∃ x : Q, ∀ f, FlagSet.has x f ↔ Needed k f := by
  by_cases hone : ∃ f, FlagSet.has k.anyOf f ∧ ∀ g, FlagSet.has k.anyOf g → g = f
  · obtain ⟨f, hf, h⟩ := hone
    refine ⟨BitFlags.bor k.allOf k.anyOf, fun g => ?_⟩
    rw [FlagSet.has_or]
    constructor
    · rintro (hg | hg)
      · exact .inl hg
      · exact .inr ⟨hg, fun j hj => (h j hj).trans (h g hg).symm⟩
    · rintro (hg | ⟨hg, _⟩)
      · exact .inl hg
      · exact .inr hg
  · refine ⟨k.allOf, fun g => ⟨.inl, ?_⟩⟩
    rintro (hg | ⟨hg, h⟩)
    · exact hg
    · exact absurd ⟨g, hg, h⟩ hone

theorem exists_needed_with (hS : Singles Q) (k : Qualifier Q) (f : FlagSet.Flag Q) :
    ∃ x : Q, ∀ g, FlagSet.has x g ↔ (Needed k g ∨ g = f) := by
  obtain ⟨x, hx⟩ := exists_needed k
  obtain ⟨y, hy⟩ := hS f
  exact ⟨BitFlags.bor x y, fun g => by rw [FlagSet.has_or, hx, hy]⟩

/-- **C128** Exactly when one modifier applies wherever another does: `k'` is at least as general as `k`. -/
theorem C128_general (hS : Singles Q) (k k' : Qualifier Q) :
    (∀ x : Q, k.qualifiesAs (.aggregate x) = true → k'.qualifiesAs (.aggregate x) = true) ↔ AsGeneral k k' := by
  simp only [aggregate_iff, aggMatches_iff]
  constructor
  · intro h
    constructor
    · intro hc
      obtain ⟨x, hx⟩ := exists_needed k
      obtain ⟨h1, h2⟩ := h x ⟨fun f hf => (hx f).2 hf, .inl hc⟩
      exact ⟨fun g hg => (hx g).1 (h1 g hg), h2.imp id fun ⟨g, hg, hg'⟩ => ⟨g, hg, (hx g).1 hg'⟩⟩
    · intro f hf
      obtain ⟨x, hx⟩ := exists_needed_with hS k f
      obtain ⟨h1, h2⟩ := h x ⟨fun g hg => (hx g).2 (.inl hg), .inr ⟨f, hf, (hx f).2 (.inr rfl)⟩⟩
      exact ⟨fun g hg => (hx g).1 (h1 g hg), h2.imp id fun ⟨g, hg, hg'⟩ => ⟨g, hg, (hx g).1 hg'⟩⟩
  · rintro ⟨h1, h2⟩ x ⟨hn, hc⟩
    have key : ∀ P : FlagSet.Flag Q → Prop, (∀ g, P g → FlagSet.has x g) →
        (∀ g, Needed k' g → P g) ∧ ((∀ g, ¬ Choice k' g) ∨ ∃ g, Choice k' g ∧ P g) →
        (∀ f, Needed k' f → FlagSet.has x f) ∧ ((∀ f, ¬ Choice k' f) ∨ ∃ f, Choice k' f ∧ FlagSet.has x f) :=
      fun P hP ⟨a, b⟩ => ⟨fun g hg => hP g (a g hg), b.imp id fun ⟨g, hg, hg'⟩ => ⟨g, hg, hP g hg'⟩⟩
    rcases hc with hc | ⟨f, hf, hx⟩
    · exact key (Needed k) hn (h1 hc)
    · refine key (fun g => Needed k g ∨ g = f) ?_ (h2 f hf)
      rintro g (hg | rfl)
      · exact hn g hg
      · exact hx

/-- **C128** Two modifiers apply to the same aggregate queries if and only if they need the same flags and choose from
the same flags. -/
theorem C128_same (hS : Singles Q) (k k' : Qualifier Q) :
    (∀ x : Q, k.qualifiesAs (.aggregate x) = k'.qualifiesAs (.aggregate x)) ↔ Interchangeable k k' := by
  have hkk : (∀ x : Q, k.qualifiesAs (.aggregate x) = k'.qualifiesAs (.aggregate x)) ↔
      AsGeneral k k' ∧ AsGeneral k' k := by
    rw [← C128_general hS, ← C128_general hS]
    constructor
    · intro h
      exact ⟨fun x hx => by rw [← h]; exact hx, fun x hx => by rw [h]; exact hx⟩
    · rintro ⟨h1, h2⟩ x
      exact Bool.eq_iff_iff.2 ⟨h1 x, h2 x⟩
  rw [hkk]
  have hneed : ∀ {k k' : Qualifier Q}, AsGeneral k k' → ∀ g, Needed k' g → Needed k g := by
    intro k k' h g hg
    by_cases hc : ∃ f, Choice k f
    · obtain ⟨f, hf⟩ := hc
      obtain ⟨hf', j, hj, hcj⟩ := hf.spec
      rcases (h.2 f hf).1 g hg with h1 | rfl
      · exact h1
      · rcases (h.2 j hcj).1 g hg with h2 | e
        · exact h2
        · exact absurd e.symm hj
    · exact (h.1 fun f hf => hc ⟨f, hf⟩).1 g hg
  have hchoice : ∀ {k k' : Qualifier Q}, AsGeneral k k' → AsGeneral k' k → ∀ f, Choice k f → Choice k' f := by
    intro k k' h h' f hf
    have hn : ∀ g, Needed k g ↔ Needed k' g := fun g => ⟨hneed h' g, hneed h g⟩
    rcases (h.2 f hf).2 with h1 | ⟨g, hg, hgk⟩
    · obtain ⟨_, h2⟩ := h'.1 h1
      rcases h2 with h2 | ⟨g, hg, hgn⟩
      · exact absurd hf (h2 f)
      · exact absurd ((hn g).2 hgn) hg.spec.1
    · rcases hgk with hgk | rfl
      · exact absurd ((hn g).1 hgk) hg.spec.1
      · exact hg
  constructor
  · rintro ⟨h1, h2⟩
    exact ⟨fun f => ⟨hneed h2 f, hneed h1 f⟩, fun f => ⟨hchoice h1 h2 f, hchoice h2 h1 f⟩⟩
  · have : ∀ {k k' : Qualifier Q}, Interchangeable k k' → AsGeneral k k' := by
      rintro k k' ⟨hn, hc⟩
      refine ⟨fun h => ⟨fun g hg => (hn g).2 hg, .inl fun g hg => h g ((hc g).2 hg)⟩, fun f hf => ⟨fun g hg => .inl ((hn g).2 hg), .inr ⟨f, (hc f).1 hf, .inr rfl⟩⟩⟩
    intro h
    exact ⟨this h, this ⟨fun f => (h.1 f).symm, fun f => (h.2 f).symm⟩⟩

/-- **C128** Exact queries tell all modifiers apart. -/
theorem C128_exact (k k' : Qualifier Q) :
    (∀ a b : Q, k.qualifiesAs (.exact a b) = k'.qualifiesAs (.exact a b)) ↔ k = k' := by
  constructor
  · intro h
    have h1 := (exact_iff k' k.anyOf k.allOf).1 (by rw [← h]; exact (exact_iff ..).2 ⟨fun _ => .rfl, fun _ h => h⟩)
    have h2 := (exact_iff k k'.anyOf k'.allOf).1 (by rw [h]; exact (exact_iff ..).2 ⟨fun _ => .rfl, fun _ h => h⟩)
    have e1 : k.anyOf = k'.anyOf := FlagSet.ext fun f => ⟨h1.2 f, h2.2 f⟩
    have e2 : k.allOf = k'.allOf := FlagSet.ext h2.1
    cases k; cases k'
    simp only at e1 e2
    rw [e1, e2]
  · rintro rfl _ _; rfl

/-- **C128** The ways in which different qualifiers can be interchangeable: one flag in `any_of` is the same as in
`all_of`, and `any_of` does not matter if `all_of` has one of its flags. -/
theorem C128_ways (y z : Q) (f : FlagSet.Flag Q) :
    ((∀ g, FlagSet.has y g ↔ g = f) → Interchangeable (⟨y, z⟩ : Qualifier Q) ⟨BitFlags.dflt, BitFlags.bor z y⟩) ∧
    (Meets y z → Interchangeable (⟨y, z⟩ : Qualifier Q) ⟨BitFlags.dflt, z⟩) := by
  constructor
  · intro hy
    refine ⟨fun g => ?_, fun g => ?_⟩
    · simp only [Needed, FlagSet.has_or]
      constructor
      · rintro (h | ⟨h, _⟩)
        · exact .inl (.inl h)
        · exact .inl (.inr h)
      · rintro ((h | h) | ⟨h, _⟩)
        · exact .inl h
        · exact .inr ⟨h, fun j hj => ((hy j).1 hj).trans ((hy g).1 h).symm⟩
        · exact absurd h (FlagSet.has_default g)
    · constructor
      · rintro ⟨h, ⟨j, hj, hj'⟩, _⟩
        exact absurd (((hy j).1 hj').trans ((hy g).1 h).symm) hj
      · rintro ⟨h, _⟩
        exact absurd h (FlagSet.has_default g)
  · intro hm
    refine ⟨fun g => ?_, fun g => ?_⟩
    · constructor
      · rintro (h | ⟨h, hone⟩)
        · exact .inl h
        · obtain ⟨j, hj, hjz⟩ := hm
          rw [hone j hj] at hjz
          exact .inl hjz
      · rintro (h | ⟨h, _⟩)
        · exact .inl h
        · exact absurd h (FlagSet.has_default g)
    · constructor
      · rintro ⟨_, _, h⟩
        exact absurd hm h
      · rintro ⟨h, _⟩
        exact absurd h (FlagSet.has_default g)
end

section
variable {E : Env} {Q : Type} [BitFlags Q] [FlagSet Q] [Ord Q] [Std.TransOrd Q] [Std.LawfulEqOrd Q] (A : Addr E)

/-- the values that an aggregate query of a map joins -/
theorem query_values (h : List (MapOp E Q)) (m : StatMap E Q) (hm : StatMap.run A h = .ok m) (x : Q) (s : StatInst E)
    (hs : Storable (E.layout s.ty)) : ∃ L : List (Qualifier Q × s.Val), (L.map (·.1)).Nodup ∧
      (∀ k v, (k, v) ∈ L ↔ StatMap.get A m k s = .ok (some v) ∧ k.qualifiesAs (.aggregate x) = true) ∧
      StatMap.queryStat A m (.aggregate x) s = joinList s.sv s.sv.default (L.map (·.2)) := by
  obtain ⟨a, L, ha, hp, -, hmem, hq, -⟩ := C08_query_joins_matching A h m hm (.aggregate x) s hs
  have hg := C06_behaves_as_map A h
  rw [hm, ha] at hg
  refine ⟨L, hp.imp ?_, fun k v => ?_, hq⟩
  · rintro k _ hxy rfl
    rcases hxy with h | ⟨_, h⟩ <;> exact absurd h (by simp)
  · rw [hmem, hg.1, matches_iff]
    simp

/-- **C128** If one map holds under interchangeable qualifiers what another holds, aggregate queries of the two join
the same values, in some order. -/
theorem C128_map (hS : Singles Q) (h h' : List (MapOp E Q)) (m m' : StatMap E Q) (hm : StatMap.run A h = .ok m)
    (hm' : StatMap.run A h' = .ok m') (s : StatInst E) (hs : Storable (E.layout s.ty))
    (f : Qualifier Q → Qualifier Q) (hf : Function.Injective f) (hi : ∀ k, Interchangeable k (f k))
    (hsame : ∀ k, StatMap.get A m' (f k) s = StatMap.get A m k s)
    (hno : ∀ k', (∀ k, f k ≠ k') → StatMap.get A m' k' s = .ok none) (x : Q) :
    ∃ l l' : List s.Val, l.Perm l' ∧ StatMap.queryStat A m (.aggregate x) s = joinList s.sv s.sv.default l ∧
      StatMap.queryStat A m' (.aggregate x) s = joinList s.sv s.sv.default l' := by
  obtain ⟨L, hn, hL, hq⟩ := query_values A h m hm x s hs
  obtain ⟨L', hn', hL', hq'⟩ := query_values A h' m' hm' x s hs
  refine ⟨_, _, ?_, hq, hq'⟩
  have hp : (L.map fun p => (f p.1, p.2)).Perm L' := by
    refine (List.perm_ext_iff_of_nodup ?_ (List.Nodup.of_map _ hn')).2 ?_
    · refine List.Nodup.map ?_ (List.Nodup.of_map _ hn)
      rintro ⟨a, b⟩ ⟨c, d⟩ he
      obtain ⟨h1, h2⟩ := Prod.mk.inj he
      exact Prod.ext (hf h1) h2
    · rintro ⟨k', v⟩
      rw [hL', List.mem_map]
      constructor
      · rintro ⟨⟨k, w⟩, hkw, he⟩
        obtain ⟨rfl, rfl⟩ := Prod.mk.inj he
        obtain ⟨h1, h2⟩ := (hL _ _).1 hkw
        exact ⟨by rw [hsame]; exact h1, by rw [← (C128_same hS _ _).2 (hi k)]; exact h2⟩
      · rintro ⟨h1, h2⟩
        by_cases hk : ∃ k, f k = k'
        · obtain ⟨k, rfl⟩ := hk
          exact ⟨(k, v), (hL _ _).2 ⟨by rw [← hsame]; exact h1, by rw [(C128_same hS _ _).2 (hi k)]; exact h2⟩, rfl⟩
        · rw [hno k' fun k e => hk ⟨k, e⟩] at h1
          cases h1
  have := hp.map (·.2)
  rwa [List.map_map] at this

/-- **C128** One modifier that does anything: maps that hold it under two qualifiers answer all aggregate queries
alike if and only if the qualifiers are interchangeable. -/
theorem C128_map_iff (hS : Singles Q) (s : StatInst E) (hs : Storable (E.layout s.ty)) (v : s.Val)
    (hv : joinList s.sv s.sv.default [v] ≠ .ok s.sv.default) (k k' : Qualifier Q) (m m' : StatMap E Q)
    (hm : StatMap.run A [.insert k s v] = .ok m) (hm' : StatMap.run A [.insert k' s v] = .ok m') :
    (∀ x : Q, StatMap.queryStat A m (.aggregate x) s = StatMap.queryStat A m' (.aggregate x) s) ↔
      Interchangeable k k' := by
  have key : ∀ (k : Qualifier Q) (m : StatMap E Q), StatMap.run A [.insert k s v] = .ok m → ∀ x : Q,
      StatMap.queryStat A m (.aggregate x) s = if k.qualifiesAs (.aggregate x) = true
        then joinList s.sv s.sv.default [v] else .ok s.sv.default := by
    intro k m hm x
    obtain ⟨L, hn, hL, hq⟩ := query_values A _ m hm x s hs
    obtain ⟨a, ha, r⟩ := reachRep A hm
    have hg := C06_behaves_as_map A [.insert k s v]
    rw [hm, ha] at hg
    have hga : ∀ j w, a ⟨s, j⟩ = some w ↔ j = k ∧ w = v := by
      intro j w
      have ha' : a = (PMap.empty : PMap E Q).set ⟨s, k⟩ v := by
        simp only [PMap.run, PMap.runFrom, PMap.step, PMap.store, if_pos hs, Res.bind_ok] at ha
        cases ha; rfl
      rw [ha']
      by_cases hj : j = k
      · subst hj
        simp [PMap.set, eq_comm]
      · simp [PMap.set, PMap.empty, hj]
    rw [hq]
    by_cases hk : k.qualifiesAs (.aggregate x) = true
    · rw [if_pos hk]
      have : L.Perm [(k, v)] := by
        refine (List.perm_ext_iff_of_nodup (List.Nodup.of_map _ hn) (by simp)).2 ?_
        rintro ⟨j, w⟩
        rw [hL, hg.1, List.mem_singleton, Prod.mk.injEq]
        constructor
        · rintro ⟨h1, _⟩
          exact (hga j w).1 (by simpa using h1)
        · rintro ⟨rfl, rfl⟩
          exact ⟨by rw [(hga _ _).2 ⟨rfl, rfl⟩], hk⟩
      rw [List.perm_singleton.1 this]
      rfl
    · rw [if_neg hk]
      have : L = [] := by
        rw [List.eq_nil_iff_forall_not_mem]
        rintro ⟨j, w⟩ hj
        obtain ⟨h1, h2⟩ := (hL j w).1 hj
        rw [hg.1] at h1
        obtain ⟨rfl, _⟩ := (hga j w).1 (by simpa using h1)
        exact hk h2
      rw [this]
      rfl
  rw [← C128_same hS]
  constructor
  · intro h x
    have := h x
    rw [key k m hm, key k' m' hm'] at this
    by_cases h1 : k.qualifiesAs (.aggregate x) = true <;> by_cases h2 : k'.qualifiesAs (.aggregate x) = true
    · rw [h1, h2]
    · rw [if_pos h1, if_neg h2] at this
      exact absurd this hv
    · rw [if_neg h1, if_pos h2] at this
      exact absurd this.symm hv
    · simp only [Bool.not_eq_true] at h1 h2
      rw [h1, h2]
  · intro h x
    rw [key k m hm, key k' m' hm', h x]
end

/-! ### examples -/

/-- `any_of(Fire)` and `all_of(Fire)` -/
example : Interchangeable (⟨1, 0⟩ : Qualifier (BitVec 8)) ⟨0, 1⟩ := by
  rw [← C128_same (singles_bits 8)]
  decide

/-- elemental damage is not the same as fire damage, but more general -/
example : ¬ Interchangeable (⟨0, 1⟩ : Qualifier (BitVec 4)) ⟨7, 0⟩ ∧ AsGeneral (⟨0, 1⟩ : Qualifier (BitVec 4)) ⟨7, 0⟩ := by
  rw [← C128_same (singles_bits 4), ← C128_general (singles_bits 4)]
  decide

/-- exchanging the two meets the hypotheses of `C128_map` on the qualifiers -/
example : ∃ f : Qualifier (BitVec 8) → Qualifier (BitVec 8), Function.Injective f ∧
    (∀ k, Interchangeable k (f k)) ∧ f ⟨1, 0⟩ = ⟨0, 1⟩ := by
  have h : Interchangeable (⟨1, 0⟩ : Qualifier (BitVec 8)) ⟨0, 1⟩ := by
    rw [← C128_same (singles_bits 8)]
    decide
  refine ⟨Equiv.swap ⟨1, 0⟩ ⟨0, 1⟩, (Equiv.swap _ _).injective, fun k => ?_, Equiv.swap_apply_left ..⟩
  rw [Equiv.swap_apply_def]
  split_ifs with h1 h2
  · rw [h1]; exact h
  · rw [h2]; exact ⟨fun f => (h.1 f).symm, fun f => (h.2 f).symm⟩
  · exact ⟨fun _ => .rfl, fun _ => .rfl⟩

/-- a value that does something -/
example : joinList (demoInt 0).sv (demoInt 0).sv.default [(⟨5, 0, 100, 1⟩ : (demoInt 0).Val)] ≠
    .ok (demoInt 0).sv.default := by
  intro h
  have : (5 : Int) = 0 := by
    have h' := congrArg (fun r : Res (demoInt 0).Val => match r with | .ok v => StatInt.addend v | .error _ => 0) h
    exact h'
  omega

/-- the two are different keys: a map holds values under both, and a query for fire joins both -/
example : (StatMap.run demoAddr (Q := BitVec 8)
    [.insert ⟨1, 0⟩ (demoInt 0) ⟨5, 0, 100, 1⟩, .insert ⟨0, 1⟩ (demoInt 0) ⟨6, 0, 100, 1⟩] >>= fun m =>
      StatMap.evalStat demoAddr m (.aggregate 1#8) (demoInt 0)) = .ok (11 : Int) := by rfl

end BSQ
