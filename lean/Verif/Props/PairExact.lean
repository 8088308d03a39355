import Verif.Spec.PairExact
import Verif.Props.LedgerPair
/-!
# C82, exactly: which programs with pairs have undefined behaviour
-/
set_option linter.unusedSectionVars false
namespace BSQ
variable {E : Env} {A : Addr E}

namespace PairState

/-- the variable `v` holds what is expected -/
def Holds (st : PairState E) (v : Nat) : RefIs → Prop
  | .absent => st.refs v = none
  | .into i => ∃ r p, st.refs v = some r ∧ r.slot = i ∧ st.at_ i = some p ∧ p.tag = r.tag
  | .dangling => ∃ r, st.refs v = some r ∧ ∀ p, st.at_ r.slot = some p → p.tag ≠ r.tag

/-- nothing was touched -/
theorem Holds.same {st st' : PairState E} {v : Nat} {x : RefIs} (h : Holds st v x) (hr : st'.refs v = st.refs v)
    (ha : ∀ r, st.refs v = some r → st'.at_ r.slot = st.at_ r.slot) : Holds st' v x := by
  cases x with
  | absent => exact hr.trans h
  | into i =>
    obtain ⟨r, p, h1, h2, h3, h4⟩ := h
    exact ⟨r, p, hr.trans h1, h2, by subst h2; rw [ha r h1]; exact h3, h4⟩
  | dangling =>
    obtain ⟨r, h1, h2⟩ := h
    exact ⟨r, hr.trans h1, fun p hp => h2 p (by rw [← ha r h1]; exact hp)⟩

/-- pair `i` was touched -/
theorem Holds.touch {st st' : PairState E} {v i : Nat} {x : RefIs} {p : PairSlot E} (h : Holds st v x)
    (hp : st.at_ i = some p) (hr : st'.refs v = st.refs v)
    (hle : ∀ r, st.refs v = some r → ∀ p, st.at_ r.slot = some p → r.tag ≤ p.tag)
    (ha : ∀ r, st.refs v = some r → r.slot ≠ i → st'.at_ r.slot = st.at_ r.slot)
    (hi : ∀ p', st'.at_ i = some p' → p.tag < p'.tag) : Holds st' v (PairOp.aged (some i) x) := by
  cases x with
  | absent => exact hr.trans h
  | into j =>
    obtain ⟨r, q, h1, h2, h3, h4⟩ := h
    subst h2
    simp only [PairOp.aged, Option.some.injEq]
    by_cases he : i = r.slot
    · subst he
      rw [if_pos rfl]
      refine ⟨r, hr.trans h1, fun p' hp' => ?_⟩
      have := hi p' hp'
      have h5 := hle r h1 p hp
      omega
    · rw [if_neg he]
      exact ⟨r, q, hr.trans h1, rfl, by rw [ha r h1 fun h => he h.symm]; exact h3, h4⟩
  | dangling =>
    obtain ⟨r, h1, h2⟩ := h
    refine ⟨r, hr.trans h1, fun p' hp' => ?_⟩
    by_cases he : r.slot = i
    · subst he
      have := hi p' hp'
      have h5 := hle r h1 p hp
      omega
    · exact h2 p' (by rw [← ha r h1 he]; exact hp')

theorem aged_none (x : RefIs) : PairOp.aged none x = x := by cases x <;> simp [PairOp.aged]

theorem castYes_iff (p : PairSlot E) (T : E.S) : castYes A p T = true ↔
    p.stat.vt = T ∧ Storable (E.statLayout T) ∧ ∃ x, E.fromIndex T p.stat.index = .ok x := by
  unfold castYes
  rw [validate_eq]
  by_cases hT : Storable (E.statLayout T)
  · simp only [if_pos hT]
    by_cases ha : p.stat.vt = T
    · rw [if_pos (congrArg A.at_ ha)]
      cases hx : E.fromIndex T p.stat.index <;> simp [ha, hT]
    · rw [if_neg fun h => ha (A.inj h)]
      simp [ha]
  · simp [hT]

theorem castStatYes_iff (p : PairSlot E) {T : E.S} (x : E.Sel T) : castStatYes A p x = true ↔
    p.stat = E.asEntry x ∧ Storable (E.statLayout T) := by
  unfold castStatYes
  rw [validate_eq]
  by_cases hT : Storable (E.statLayout T)
  · rw [if_pos hT]
    simp only [StatInst.eq_iff, hT, and_true]
  · simp [hT]

theorem join_none {st : PairState E} {ks : KPairs E} {R} (h : Ok st ks R) {i : Nat} (hp : st.at_ i = none) :
    (ks[i]?).join.isSome = false := by
  have := at_none h hp
  rcases hk : ks[i]? with _ | _ | s
  · rfl
  · rfl
  · exact absurd hk (this s)

theorem at_set_self {st : PairState E} {i : Nat} {p : PairSlot E} (hp : st.at_ i = some p)
    (o : Option (PairSlot E)) : (st.slots.set i o)[i]?.join = o := by
  obtain ⟨l1, l2, hl, rfl⟩ := at_split hp
  rw [List.getElem?_set, if_pos rfl, if_pos (by simp [hl])]
  rfl

theorem Holds.step {st st' : PairState E} {ks : KPairs E} {R} (h : Ok st ks R) {b : Nat → RefIs}
    (hb : ∀ v, Holds st v (b v)) (o : PairOp E) (hst : st.step A o = .ok st') (v : Nat) :
    Holds st' v (PairOp.refsAfter ks b o v) := by
  have hle : ∀ r, st.refs v = some r → ∀ p, st.at_ r.slot = some p → r.tag ≤ p.tag :=
    fun r hr p hp => ((h.refs v r hr).2 p hp).1
  cases o with
  | new s =>
    cases hst
    simp only [PairOp.refsAfter, PairOp.touches, aged_none]
    rcases st.heap.alloc s.ty with ⟨h', o⟩
    cases o with
    | none => exact (hb v).same rfl fun _ _ => rfl
    | some x =>
      refine (hb v).same rfl fun r hr => ?_
      show (st.slots ++ [_])[r.slot]?.join = _
      rw [List.getElem?_append_left (h.refs v r hr).1]
      rfl
  | use w =>
    simp only [PairOp.refsAfter, PairOp.touches, aged_none]
    simp only [PairState.step] at hst
    split at hst
    · cases hst; exact hb v
    · split at hst
      · split at hst
        · cases hst; exact (hb v).same rfl fun _ _ => rfl
        · cases hst
      · cases hst
  | look i =>
    simp only [PairState.step] at hst
    simp only [PairOp.refsAfter, PairOp.touches]
    cases hp : st.at_ i with
    | none => rw [hp] at hst; cases hst; simpa [join_none h hp, aged_none] using hb v
    | some p =>
      rw [hp] at hst; cases hst
      simp only [at_some h hp, Option.join_some, Option.isSome_some, if_true]
      refine (hb v).touch hp rfl hle (fun r _ hne => at_set_ne st _ hne) fun p' hp' => ?_
      change (st.slots.set i _)[i]?.join = _ at hp'
      rw [at_set_self hp] at hp'; cases hp'; simp
  | cast w i T =>
    simp only [PairState.step] at hst
    simp only [PairOp.refsAfter, PairOp.touches]
    cases hp : st.at_ i with
    | none =>
      rw [hp] at hst; cases hst
      by_cases hv : v = w
      · rw [if_pos hv, if_neg (by rintro ⟨s, hs, -⟩; exact at_none h hp s hs)]
        simp [Holds, PairState.unbind, hv]
      · rw [if_neg hv]
        simp only [join_none h hp, Bool.false_eq_true, if_false, aged_none]
        exact (hb v).same (by simp [PairState.unbind, hv]) fun _ _ => rfl
    | some p =>
      rw [hp] at hst; cases hst
      by_cases hv : v = w
      · rw [if_pos hv]
        have hiff : (∃ s, ks[i]? = some (some s) ∧ s.vt = T ∧ Storable (E.statLayout T) ∧
            ∃ x, E.fromIndex T s.index = .ok x) ↔ castYes A p T = true := by
          rw [castYes_iff, at_some h hp]
          exact ⟨fun ⟨s, hs, h1, h2, h3⟩ => by cases hs; exact ⟨h1, h2, h3⟩,
            fun ⟨h1, h2, h3⟩ => ⟨_, rfl, h1, h2, h3⟩⟩
        by_cases hy : castYes A p T = true
        · rw [if_pos (hiff.2 hy)]
          exact ⟨⟨i, p.tag + 1, E.valTy T⟩, { p with tag := p.tag + 1 }, by simp [PairState.bind, hv, hy], rfl,
            at_set_self hp _, rfl⟩
        · rw [if_neg fun hx => hy (hiff.1 hx)]
          simp [Holds, PairState.bind, hv, hy]
      · rw [if_neg hv]
        simp only [at_some h hp, Option.join_some, Option.isSome_some, if_true]
        refine (hb v).touch hp (by simp [PairState.bind, hv]) hle (fun r _ hne => at_set_ne st _ hne) fun p' hp' => ?_
        change (st.slots.set i _)[i]?.join = _ at hp'
        rw [at_set_self hp] at hp'; cases hp'; simp
  | castStat w i T x =>
    simp only [PairState.step] at hst
    simp only [PairOp.refsAfter, PairOp.touches]
    cases hp : st.at_ i with
    | none =>
      rw [hp] at hst; cases hst
      by_cases hv : v = w
      · rw [if_pos hv, if_neg (by rintro ⟨hs, -⟩; exact at_none h hp _ hs)]
        simp [Holds, PairState.unbind, hv]
      · rw [if_neg hv]
        simp only [join_none h hp, Bool.false_eq_true, if_false, aged_none]
        exact (hb v).same (by simp [PairState.unbind, hv]) fun _ _ => rfl
    | some p =>
      rw [hp] at hst; cases hst
      by_cases hv : v = w
      · rw [if_pos hv]
        have hiff : (ks[i]? = some (some (E.asEntry x)) ∧ Storable (E.statLayout T)) ↔
            castStatYes A p x = true := by
          rw [castStatYes_iff, at_some h hp, Option.some.injEq, Option.some.injEq]
        by_cases hy : castStatYes A p x = true
        · rw [if_pos (hiff.2 hy)]
          exact ⟨⟨i, p.tag + 1, E.valTy T⟩, { p with tag := p.tag + 1 }, by simp [PairState.bind, hv, hy], rfl,
            at_set_self hp _, rfl⟩
        · rw [if_neg fun hx => hy (hiff.1 hx)]
          simp [Holds, PairState.bind, hv, hy]
      · rw [if_neg hv]
        simp only [at_some h hp, Option.join_some, Option.isSome_some, if_true]
        refine (hb v).touch hp (by simp [PairState.bind, hv]) hle (fun r _ hne => at_set_ne st _ hne) fun p' hp' => ?_
        change (st.slots.set i _)[i]?.join = _ at hp'
        rw [at_set_self hp] at hp'; cases hp'; simp
  | intoResult i T =>
    simp only [PairState.step] at hst
    simp only [PairOp.refsAfter, PairOp.touches]
    cases hp : st.at_ i with
    | none => rw [hp] at hst; cases hst; simpa [join_none h hp, aged_none] using hb v
    | some p =>
      rw [hp] at hst; cases hst
      simp only [at_some h hp, Option.join_some, Option.isSome_some, if_true]
      refine (hb v).touch hp rfl hle (fun r _ hne => at_set_ne st _ hne) fun p' hp' => ?_
      change (st.slots.set i _)[i]?.join = _ at hp'
      rw [at_set_self hp] at hp'; cases hp'
  | drop i =>
    cases hst
    simp only [PairOp.refsAfter, PairOp.touches]
    cases hp : st.at_ i with
    | none =>
      simp only [join_none h hp, Bool.false_eq_true, if_false, aged_none]
      refine (hb v).same rfl fun r _ => ?_
      by_cases he : r.slot = i
      · subst he
        rw [hp]
        show (st.slots.set r.slot none)[r.slot]?.join = none
        rw [List.getElem?_set, if_pos rfl]
        split <;> rfl
      · exact at_set_ne st _ he
    | some p =>
      simp only [at_some h hp, Option.join_some, Option.isSome_some, if_true]
      refine (hb v).touch hp rfl hle (fun r _ hne => at_set_ne st _ hne) fun p' hp' => ?_
      change (st.slots.set i _)[i]?.join = _ at hp'
      rw [at_set_self hp] at hp'; cases hp'
  | move i =>
    simp only [PairState.step] at hst
    simp only [PairOp.refsAfter, PairOp.touches]
    cases hp : st.at_ i with
    | none => rw [hp] at hst; cases hst; simpa [join_none h hp, aged_none] using hb v
    | some p =>
      rw [hp] at hst; cases hst
      simp only [at_some h hp, Option.join_some, Option.isSome_some, if_true]
      have hlen : i < st.slots.length := by
        obtain ⟨l1, l2, hl, rfl⟩ := at_split hp
        simp [hl]
      refine (hb v).touch hp rfl hle (fun r hr hne => ?_) fun p' hp' => ?_
      · show (st.slots.set i none ++ [_])[r.slot]?.join = _
        rw [List.getElem?_append_left (by simpa using (h.refs v r hr).1)]
        exact at_set_ne st _ hne
      · change (st.slots.set i none ++ [_])[i]?.join = _ at hp'
        rw [List.getElem?_append_left (by simpa using hlen), at_set_self hp] at hp'
        cases hp'
  | assign i s =>
    simp only [PairState.step] at hst
    simp only [PairOp.refsAfter, PairOp.touches]
    cases hp : st.at_ i with
    | none => rw [hp] at hst; cases hst; simpa [join_none h hp, aged_none] using hb v
    | some p =>
      rw [hp] at hst; cases hst
      simp only [at_some h hp, Option.join_some, Option.isSome_some, true_and]
      rcases h.books.alloc s.ty with ⟨hs, h', x, h1, h2⟩ | ⟨hs, h', h1, h2⟩
      · rw [if_pos hs, h1]
        refine (hb v).touch hp rfl hle (fun r _ hne => at_set_ne st _ hne) fun p' hp' => ?_
        change (st.slots.set i _)[i]?.join = _ at hp'
        rw [at_set_self hp] at hp'; cases hp'; simp
      · rw [if_neg hs, h1, aged_none]
        exact (hb v).same rfl fun _ _ => rfl

theorem Holds.use {st : PairState E} {v : Nat} {x : RefIs} (h : Holds st v x) :
    (st.step A (.use v) = .error .ub ∧ x = .dangling) ∨ ((∃ st', st.step A (.use v) = .ok st') ∧ x ≠ .dangling) := by
  cases x with
  | absent =>
    change st.refs v = none at h
    exact .inr ⟨⟨st, by simp [PairState.step, h]⟩, by simp⟩
  | into i =>
    obtain ⟨r, p, h1, rfl, h3, h4⟩ := h
    exact .inr ⟨⟨_, by simp only [PairState.step, h1, h3, if_pos h4]; rfl⟩, by simp⟩
  | dangling =>
    obtain ⟨r, h1, h2⟩ := h
    refine .inl ⟨?_, rfl⟩
    simp only [PairState.step, h1]
    cases hp : st.at_ r.slot with
    | none => rfl
    | some p => simp only [if_neg (h2 p hp)]

theorem step_total (st : PairState E) (o : PairOp E) (h : ∀ v, o ≠ .use v) : ∃ st', st.step A o = .ok st' := by
  cases o with
  | use v => exact absurd rfl (h v)
  | new s => exact ⟨_, rfl⟩
  | drop i => exact ⟨_, rfl⟩
  | look i => cases hp : st.at_ i <;> exact ⟨_, by simp only [PairState.step, hp]; rfl⟩
  | cast v i T => cases hp : st.at_ i <;> exact ⟨_, by simp only [PairState.step, hp]; rfl⟩
  | castStat v i T x => cases hp : st.at_ i <;> exact ⟨_, by simp only [PairState.step, hp]; rfl⟩
  | intoResult i T => cases hp : st.at_ i <;> exact ⟨_, by simp only [PairState.step, hp]; rfl⟩
  | assign i s => cases hp : st.at_ i <;> exact ⟨_, by simp only [PairState.step, hp]; rfl⟩
  | move i => cases hp : st.at_ i <;> exact ⟨_, by simp only [PairState.step, hp]; rfl⟩

theorem Holds.run (os : List (PairOp E)) {st : PairState E} {ks : KPairs E} {R} (h : Ok st ks R) {b : Nat → RefIs}
    (hb : ∀ v, Holds st v (b v)) :
    ((∃ st', st.runFrom A os = .ok st') ∧ PairOp.NoDangling ks b os) ∨
      (st.runFrom A os = .error .ub ∧ ¬ PairOp.NoDangling ks b os) := by
  induction os generalizing st ks R b with
  | nil => exact .inl ⟨⟨st, rfl⟩, trivial⟩
  | cons o os ih =>
    have next : ∀ st', st.step A o = .ok st' → (∀ v, o = .use v → b v ≠ .dangling) →
        ((∃ st', st.runFrom A (o :: os) = .ok st') ∧ PairOp.NoDangling ks b (o :: os)) ∨
        (st.runFrom A (o :: os) = .error .ub ∧ ¬ PairOp.NoDangling ks b (o :: os)) := by
      intro st' hst hu
      obtain ⟨lost, h', -⟩ := h.step o hst
      rcases ih h' (Holds.step h hb o hst) with ⟨⟨st'', h1⟩, h2⟩ | ⟨h1, h2⟩
      · exact .inl ⟨⟨st'', by rw [PairState.runFrom, hst, Res.bind_ok, h1]⟩, hu, h2⟩
      · exact .inr ⟨by rw [PairState.runFrom, hst, Res.bind_ok, h1], fun hn => h2 hn.2⟩
    by_cases hu : ∃ v, o = .use v
    · obtain ⟨v, rfl⟩ := hu
      rcases (hb v).use (A := A) with ⟨h1, h2⟩ | ⟨⟨st', h1⟩, h2⟩
      · exact .inr ⟨by rw [PairState.runFrom, h1]; rfl, fun hn => hn.1 v rfl h2⟩
      · exact next st' h1 fun w hw => by cases hw; exact h2
    · obtain ⟨st', h1⟩ := step_total (A := A) st o fun v hv => hu ⟨v, hv⟩
      exact next st' h1 fun v hv => absurd ⟨v, hv⟩ hu

end PairState

/-- **C82, exactly**: a program with pairs and references into them is defined, and then all its uses of values are
sound, if and only if it never uses a reference after its pair was touched otherwise: printed or compared, cast again,
taken apart, moved, dropped or assigned to.  Any other program has undefined behaviour. -/
theorem C82_iff (os : List (PairOp E)) :
    ((∃ st, PairState.run A os = .ok st ∧ Sound st.heap.log) ↔ PairOp.NoDangling [] (fun _ => .absent) os) ∧
    (PairState.run A os = .error .ub ↔ ¬ PairOp.NoDangling [] (fun _ => .absent) os) := by
  have hb : ∀ v, PairState.Holds (PairState.init : PairState E) v .absent := fun _ => rfl
  rcases PairState.Holds.run (A := A) os .init hb with ⟨⟨st, h1⟩, h2⟩ | ⟨h1, h2⟩
  · refine ⟨⟨fun _ => h2, fun _ => ⟨st, h1, C83_sound os st h1⟩⟩, ⟨fun h => ?_, fun h => absurd h2 h⟩⟩
    rw [PairState.run, h1] at h; cases h
  · refine ⟨⟨fun ⟨st, h, _⟩ => ?_, fun h => absurd h h2⟩, ⟨fun _ => h2, fun _ => h1⟩⟩
    rw [PairState.run, h1] at h; cases h

/-- C82: a reference used twice before its pair is taken apart is fine, although not one used after; and after a cast
at the wrong type there is no reference to use -/
example :
    PairOp.NoDangling [] (fun _ => .absent) (E := demo)
      [.new (demoInt 0), .cast 0 0 true, .use 0, .use 0, .intoResult 0 true] ∧
    ¬ PairOp.NoDangling [] (fun _ => .absent) (E := demo)
      [.new (demoInt 0), .cast 0 0 true, .intoResult 0 true, .use 0] ∧
    PairOp.NoDangling [] (fun _ => .absent) (E := demo)
      [.new (demoInt 0), .cast 0 0 false, .intoResult 0 true, .use 0] := by
  have ok : ∀ os, (∃ st, PairState.run demoAddr os = .ok st) → PairOp.NoDangling [] (fun _ => .absent) os :=
    fun os ⟨st, h⟩ => (C82_iff (A := demoAddr) os).1.1 ⟨st, h, C83_sound os st h⟩
  exact ⟨ok _ ⟨_, rfl⟩, (C82_iff (A := demoAddr) _).2.1 rfl, ok _ ⟨_, rfl⟩⟩

end BSQ
