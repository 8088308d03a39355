import Verif.Model.Unwind
import Verif.Props.StatMap
/-!
# C63: a `StatMap` survives panics
-/
set_option linter.unusedSectionVars false
namespace BSQ
variable {E : Env} {Q : Type} [DecidableEq Q] [Ord Q] [Std.TransOrd Q] [Std.LawfulEqOrd Q] {A : Addr E}

/-- an entry whose key is kept and whose buffer, if changed, is a value of the stat `s` it belongs to -/
def Retouch (s : StatInst E) (e e' : Entry E Q (Buf E)) : Prop :=
  e'.stat = e.stat ∧ e'.qual = e.qual ∧ (e'.buf = e.buf ∨ (e.stat = s ∧ ∃ v' : s.Val, e'.buf = .val s.ty v'))

theorem Retouch.refl (s : StatInst E) (e : Entry E Q (Buf E)) : Retouch s e e := ⟨rfl, rfl, .inl rfl⟩

theorem Retouch.refls (s : StatInst E) (l : StatMap E Q) : List.Forall₂ (Retouch s) l l := by
  induction l with
  | nil => exact .nil
  | cons e l ih => exact .cons (.refl s e) ih

theorem Retouch.lookup {s : StatInst E} {m m' : StatMap E Q} (h : List.Forall₂ (Retouch s) m m') (k : Key E Q) :
    Vec.lookup m' k = Vec.lookup m k ∨
      (k.stat = s ∧ (Vec.lookup m k).isSome ∧ ∃ v' : s.Val, Vec.lookup m' k = some (.val s.ty v')) := by
  induction h with
  | nil => exact .inl rfl
  | @cons e e' l l' he _ ih =>
    obtain ⟨h1, h2, h3⟩ := he
    have hk : e'.key = e.key := by simp only [Entry.key, h1, h2]
    unfold Vec.lookup at ih ⊢
    by_cases hc : e.key = k
    · have hc' : e'.key = k := hk.trans hc
      simp only [List.find?_cons, hc, hc', decide_true, Option.map_some]
      rcases h3 with h3 | ⟨hs, v', hv'⟩
      · exact .inl (by rw [h3])
      · exact .inr ⟨by rw [← hc]; exact hs, rfl, v', by rw [hv']⟩
    · have hc' : ¬ e'.key = k := fun hh => hc (hk.symm.trans hh)
      simpa only [List.find?_cons, hc, hc', decide_false] using ih

theorem Retouch.keys {s : StatInst E} {m m' : StatMap E Q} (h : List.Forall₂ (Retouch s) m m') :
    m'.map Entry.key = m.map Entry.key := by
  induction h with
  | nil => rfl
  | @cons e e' l l' he _ ih =>
    simp only [List.map_cons, ih]
    rw [show e'.key = e.key by simp only [Entry.key, he.1, he.2.1]]

theorem Rep.retouch {m m' : StatMap E Q} {a : PMap E Q} (r : Rep A m a) {s : StatInst E}
    (h : List.Forall₂ (Retouch s) m m') :
    ∃ a' : PMap E Q, Rep A m' a' ∧ (∀ k, k.stat ≠ s → a' k = a k) ∧ ∀ k, (a' k).isSome = (a k).isSome := by
  have key : ∀ k : Key E Q, ∃ o : Option k.Val, Vec.lookup m' k = o.map (Buf.val k.stat.ty) ∧
      (k.stat ≠ s → o = a k) ∧ o.isSome = (a k).isSome := by
    intro k
    rcases Retouch.lookup h k with hl | ⟨hs, hsome, v', hv'⟩
    · exact ⟨a k, by rw [hl, r.holds], fun _ => rfl, rfl⟩
    · subst hs
      refine ⟨some v', by rw [hv']; rfl, fun hne => absurd rfl hne, ?_⟩
      rw [r.holds, Option.isSome_map] at hsome
      rw [hsome]; rfl
  choose a' h1 h2 h3 using key
  refine ⟨a', ⟨?_, h1, fun k hk => r.storable k ?_⟩, h2, h3⟩
  · unfold Vec.Sorted
    rw [Retouch.keys h]; exact r.sorted
  · rw [← h3]; exact hk

/-- an interrupted call leaves a map of the same kind, different only in the keys the call was about -/
theorem Rep.interrupted {m m' : StatMap E Q} {a : PMap E Q} {K : Key E Q → Prop} (r : Rep A m a)
    (h : Interrupted A m K m') : ∃ a' : PMap E Q, Rep A m' a' ∧ ∀ k, ¬ K k → a' k = a k := by
  cases h with
  | insert q s => exact ⟨a, r, fun _ _ => rfl⟩
  | absent q s _ => exact ⟨a, r, fun _ _ => rfl⟩
  | none => exact ⟨a, r, fun _ _ => rfl⟩
  | clear => exact ⟨PMap.empty, Rep.empty, fun k hk => absurd trivial hk⟩
  | present q s v v' h =>
    rw [r.get] at h
    refine ⟨_, r.update q s v v' (Except.ok.inj h), fun k hk => ?_⟩
    simp [PMap.set, hk]
  | removeAll _ s h =>
    have := r.removeAll s
    rw [h] at this
    exact ⟨_, this, fun k hk => by simp [hk]⟩
  | iterMut s mid hr h =>
    have hsl := Vec.slice_eq r.sorted s
    unfold Vec.slice at hsl
    have hmem : ∀ e ∈ (m.take (m.range A s).2).drop (m.range A s).1, e.stat = s := by
      simp only at hsl
      split at hsl
      · cases hsl
      · rw [Except.ok.inj hsl]
        intro e he
        simpa using (List.mem_filter.1 he).2
    have hmid : List.Forall₂ (Retouch s) ((m.take (m.range A s).2).drop (m.range A s).1) mid := by
      generalize (m.take (m.range A s).2).drop (m.range A s).1 = l at h hmem
      induction h with
      | nil => exact .nil
      | @cons e e' l l' he _ ih =>
        refine .cons ⟨he.1, he.2.1, he.2.2.imp id fun hv => ⟨hmem e (by simp), hv⟩⟩
          (ih fun x hx => hmem x (by simp [hx]))
    have hsplit : m = m.take (m.range A s).1 ++ (m.take (m.range A s).2).drop (m.range A s).1 ++
        m.drop (m.range A s).2 := by
      conv_lhs => rw [← List.take_append_drop (m.range A s).2 m]
      congr 1
      conv_lhs => rw [← List.take_append_drop (m.range A s).1 (m.take (m.range A s).2)]
      congr 1
      rw [List.take_take, Nat.min_eq_left hr]
    have hall : List.Forall₂ (Retouch s) m (m.take (m.range A s).1 ++ mid ++ m.drop (m.range A s).2) := by
      have := List.rel_append (List.rel_append (Retouch.refls s (m.take (m.range A s).1)) hmid)
        (Retouch.refls s (m.drop (m.range A s).2))
      simp only at this
      rwa [← hsplit] at this
    obtain ⟨a', h1, h2, _⟩ := r.retouch hall
    exact ⟨a', h1, fun k hk => h2 k hk⟩

/-- what caught panics leave is a plain map -/
theorem Survives.rep {m : StatMap E Q} (h : Survives A m) : ∃ a : PMap E Q, Rep A m a := by
  induction h with
  | new => exact ⟨_, Rep.empty⟩
  | ret m m' o _ hs ih =>
    obtain ⟨a, r⟩ := ih
    have := r.step o
    rw [hs] at this
    cases ha : a.step o with
    | error e => rw [ha] at this; exact this.elim
    | ok a' => rw [ha] at this; exact ⟨a', this⟩
  | caught m m' K _ hi ih =>
    obtain ⟨a, r⟩ := ih
    obtain ⟨a', r', _⟩ := r.interrupted hi
    exact ⟨a', r'⟩

theorem keyBefore_iff (x y : Key E Q) : KeyBefore A x y ↔ Vec.KLt A x y := by
  constructor
  · intro h
    simp only [Vec.KLt, Key.cmp, StatInst.cmp, Qualifier.cmp, Ordering.then_eq_lt, Nat.compare_eq_lt,
      Ordering.then_eq_eq, Nat.compare_eq_eq]
    unfold KeyBefore KeyBefore.QualBefore at h
    rcases h with h1 | ⟨h1, h2 | ⟨h2, h3 | ⟨h3, h4⟩⟩⟩
    · exact .inl (.inl h1)
    · exact .inl (.inr ⟨by rw [h1], h2⟩)
    · exact .inr ⟨⟨by rw [h1], h2⟩, .inl h3⟩
    · exact .inr ⟨⟨by rw [h1], h2⟩, .inr ⟨by rw [h3]; exact Std.ReflCmp.compare_self, h4⟩⟩
  · intro hxy
    simp only [Vec.KLt, Key.cmp, StatInst.cmp, Qualifier.cmp, Ordering.then_eq_lt, Nat.compare_eq_lt,
      Ordering.then_eq_eq, Nat.compare_eq_eq] at hxy
    unfold KeyBefore KeyBefore.QualBefore
    rcases hxy with (h1 | ⟨h1, h2⟩) | ⟨⟨h1, h2⟩, h3 | ⟨h3, h4⟩⟩
    · exact .inl h1
    · exact .inr ⟨A.inj h1, .inl h2⟩
    · exact .inr ⟨A.inj h1, .inr ⟨h2, .inl h3⟩⟩
    · exact .inr ⟨A.inj h1, .inr ⟨h2, .inr ⟨Std.LawfulEqCmp.eq_of_compare h3, h4⟩⟩⟩

variable (A) in
/-- **C63** (the part that holds): after any calls, some of which panicked and were caught, the map still holds
each key once and in order, and it goes on behaving as a plain map: whatever calls follow, they fail alike or both
succeed and then agree under every key.  Missing: `extend`, refuted below. -/
theorem C63_survives_partial (m : StatMap E Q) (h : Survives A m) :
    (m.map (fun e => (⟨e.stat, e.qual⟩ : Key E Q))).Pairwise (KeyBefore A) ∧
    ∃ a : PMap E Q, ∀ os, match StatMap.runFrom A m os, a.runFrom os with
      | .ok m', .ok a' => ∀ q s, StatMap.get A m' q s = .ok (a' ⟨s, q⟩)
      | .error e, .error e' => e = e'
      | _, _ => False := by
  obtain ⟨a, r⟩ := h.rep
  refine ⟨?_, a, fun os => ?_⟩
  · exact List.Pairwise.imp (fun {x y} hxy => (keyBefore_iff x y).2 hxy) r.sorted
  · have := r.runFrom os
    revert this
    cases StatMap.runFrom A m os <;> cases a.runFrom os <;> intro h
    · exact h
    · exact h
    · exact h
    · exact Rep.get h

/-- C63: the interrupted call itself disturbs no key it was not about. -/
theorem C63_other_keys_undisturbed (m m' : StatMap E Q) (h : Survives A m) (K : Key E Q → Prop)
    (hi : Interrupted A m K m') (q : Qualifier Q) (s : StatInst E) (hk : ¬ K ⟨s, q⟩) :
    StatMap.get A m' q s = StatMap.get A m q s := by
  obtain ⟨a, r⟩ := h.rep
  obtain ⟨a', r', hsame⟩ := r.interrupted hi
  rw [r'.get, r.get, hsame _ hk]

/-- a concrete surviving map: a value is inserted, then a closure modifying it panics after writing 9 -/
example : ∃ m m', StatMap.run demoAddr (Q := BitVec 8) [.insert ⟨0, 0⟩ (demoInt 2) ⟨5, 0, 100, 1⟩] = .ok m ∧
    Interrupted demoAddr m (· = ⟨demoInt 2, ⟨0, 0⟩⟩) m' ∧ Survives demoAddr m' ∧
    StatMap.getEvaled demoAddr m' ⟨0, 0⟩ (demoInt 2) = .ok (some (9 : Int)) := by
  have h : Interrupted demoAddr (Q := BitVec 8) _ _ _ :=
    .present [⟨demoInt 2, ⟨0, 0⟩, .val true ⟨5, 0, 100, 1⟩⟩] ⟨0, 0⟩ (demoInt 2) ⟨5, 0, 100, 1⟩ ⟨9, 0, 100, 1⟩ rfl
  exact ⟨_, _, rfl, h, .caught _ _ _ (.ret _ _ (.insert ⟨0, 0⟩ (demoInt 2) ⟨5, 0, 100, 1⟩) .new rfl) h, rfl⟩

/-- **C63 is refuted** for `extend`.  A map holds an integer stat and a flag stat; extending it by another integer
stat from an iterator that then panics leaves the new entry unsorted at the end, and querying the flag stat
afterwards reads an integer stat as flags (undefined behaviour); `iter` hands out such a reference. -/
theorem C63_refuted_extend :
    ∃ m m' : StatMap demo (BitVec 8), Survives demoAddr m ∧
      InterruptedExtend (E := demo) true [(⟨0, 0⟩, (1 : Nat), ⟨3, 0, 9, 1⟩)] m m' ∧
      StatMap.evalStat demoAddr m QualifierQuery.none (demoFlag 0) = .ok 5#8 ∧
      StatMap.evalStat demoAddr m' QualifierQuery.none (demoFlag 0) = .error .ub ∧
      StatMap.iter demoAddr m' (demoFlag 0) = .error .ub := by
  refine ⟨[⟨demoInt 0, ⟨0, 0⟩, .val true ⟨6, 0, 9, 1⟩⟩, ⟨demoFlag 0, ⟨0, 0⟩, .val false ⟨0, 5⟩⟩], _,
    .ret _ _ (.insert ⟨0, 0⟩ (demoInt 0) ⟨6, 0, 9, 1⟩)
      (.ret _ _ (.insert ⟨0, 0⟩ (demoFlag 0) ⟨0, 5⟩) .new rfl) rfl,
    .mk _ _ rfl, rfl, rfl, rfl⟩

/-- C63, `extend` exactly: in a vector with distinct keys, left behind by whatever calls (an interrupted `extend`
by new and distinct keys, say), everything stored can be found if and only if the keys happen to be in order. -/
theorem C63_extend_iff (m' : StatMap E Q)
    (hn : (m'.map (fun e => (⟨e.stat, e.qual⟩ : Key E Q))).Nodup) :
    (∀ e ∈ m', StatMap.get A m' e.qual e.stat ≠ .ok none) ↔
      (m'.map (fun e => (⟨e.stat, e.qual⟩ : Key E Q))).Pairwise (KeyBefore A) := by
  have hs : (m'.map (fun e => (⟨e.stat, e.qual⟩ : Key E Q))).Pairwise (KeyBefore A) ↔ Vec.Sorted A m' := by
    unfold Vec.Sorted
    exact List.Pairwise.iff fun x y => (keyBefore_iff x y)
  rw [hs]
  constructor
  · intro hf
    refine Vec.sorted_of_found hn fun e he => ?_
    have := hf e he
    unfold StatMap.get at this
    cases hx : Vec.find A m' e.qual e.stat with
    | none => rw [hx] at this; exact absurd rfl this
    | some b => rfl
  · intro hso e he hg
    unfold StatMap.get at hg
    rw [Vec.find_eq hso] at hg
    have hb : (Vec.lookup m' ⟨e.stat, e.qual⟩).isSome := by
      rw [Vec.lookup, Option.isSome_map, List.find?_isSome]
      exact ⟨e, he, by simp [Entry.key]⟩
    cases hx : Vec.lookup m' ⟨e.stat, e.qual⟩ with
    | none => rw [hx] at hb; cases hb
    | some b =>
      rw [hx] at hg
      simp only [StatMap.readAs, Res.bind_eq_ok] at hg
      obtain ⟨v, _, hv⟩ := hg
      cases hv

/-- C63: that the keys are distinct is needed there.  A map of one stat is extended by another and by itself, and the
iterator panics: the keys are not in order, but everything can be found.  Removing the stat takes the
newer value, and afterwards the older one is not found although it is still there. -/
theorem C63_extend_repeated : ∃ m m' m'' : StatMap demo (BitVec 8), Survives demoAddr m ∧
    InterruptedExtend (E := demo) true [(⟨0, 0⟩, (1 : Nat), ⟨3, 0, 9, 1⟩), (⟨0, 0⟩, (2 : Nat), ⟨4, 0, 9, 1⟩)] m m' ∧
    (∀ e ∈ m', StatMap.get demoAddr m' e.qual e.stat ≠ .ok none) ∧
    ¬ (m'.map (fun e => (⟨e.stat, e.qual⟩ : Key demo (BitVec 8)))).Pairwise (KeyBefore demoAddr) ∧
    StatMap.remove demoAddr m' ⟨0, 0⟩ (demoInt 2) = .ok (m'', some (⟨4, 0, 9, 1⟩ : StatInt)) ∧
    StatMap.get demoAddr m'' ⟨0, 0⟩ (demoInt 2) = .ok none ∧
    ⟨demoInt 2, ⟨0, 0⟩, .val true ⟨5, 0, 9, 1⟩⟩ ∈ m'' := by
  refine ⟨[⟨demoInt 2, ⟨0, 0⟩, .val true ⟨5, 0, 9, 1⟩⟩], _,
    [⟨demoInt 2, ⟨0, 0⟩, .val true ⟨5, 0, 9, 1⟩⟩, ⟨demoInt 1, ⟨0, 0⟩, .val true ⟨3, 0, 9, 1⟩⟩],
    .ret _ _ (.insert ⟨0, 0⟩ (demoInt 2) ⟨5, 0, 9, 1⟩) .new rfl, .mk _ _ rfl, ?_, ?_, rfl, rfl, List.mem_cons_self⟩
  · intro e he h
    rcases he with _ | ⟨_, _ | ⟨_, _ | ⟨_, he⟩⟩⟩
    · cases h
    · cases h
    · cases h
    · cases he
  · intro h
    have h := (List.pairwise_cons.1 h).1 ⟨demoInt 1, ⟨0, 0⟩⟩ (by simp [demoInt])
    rcases h with h | ⟨_, h | ⟨h, _⟩⟩
    · exact absurd h (by decide)
    · exact absurd h (by decide)
    · exact absurd h (by decide)

end BSQ
