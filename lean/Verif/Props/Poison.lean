import Verif.Spec.Poison
import Verif.Props.Ledger
/-!
# C75, C76: the cache when user code panics inside it
-/
set_option linter.unusedSectionVars false
namespace BSQ
variable {E : Env} {K : Type} [DecidableEq K] {eq : K → K → Bool} {ty : K → E.U}

namespace PState

theorem breaks_cons (f : Option Nat) (n : Nat) :
    Kept.Breaks f (n + 1) ↔ f = some 0 ∨ Kept.Breaks (f.map (· - 1)) n := by
  unfold Kept.Breaks
  cases f with
  | none => simp
  | some i =>
    cases i with
    | zero => simp
    | succ i => simp

theorem useUntil_books {h : Heap E.U} {O : List (Cell × E.U)} (l : HMap K Cell) (b : Books h O)
    (hl : ∀ e ∈ l, (e.2, ty e.1) ∈ O) (f : Option Nat) :
    Books (useUntil ty h l f).1 O ∧ ((useUntil ty h l f).2 = false ↔ Kept.Breaks f l.length) := by
  induction l generalizing h f with
  | nil => exact ⟨b, by simp [useUntil, Kept.Breaks]⟩
  | cons e l ih =>
    have b1 := b.use (hl e List.mem_cons_self)
    rw [List.length_cons, breaks_cons]
    by_cases hf : f = some 0
    · simp only [useUntil, hf, if_true]
      exact ⟨b1, by simp⟩
    · simp only [useUntil, hf, if_false, false_or]
      exact ih b1 (fun x hx => hl x (List.mem_cons_of_mem _ hx)) _

/-- what is left of the values after the loop -/
theorem dropUntil_books {h : Heap E.U} {O : List (Cell × E.U)} (l : HMap K Cell)
    (b : Books h (HMap.cells ty l ++ O)) (f : Option Nat) :
    (¬ Kept.Breaks f l.length ∧ ∃ h', dropUntil ty h l f = (h', true) ∧ Books h' O) ∨
    (Kept.Breaks f l.length ∧ ∃ h' left, dropUntil ty h l f = (h', false) ∧ Books h' (left ++ O) ∧
      left.length = l.length - (f.getD 0 + 1)) := by
  induction l generalizing h f with
  | nil => exact .inl ⟨by simp [Kept.Breaks], h, rfl, b⟩
  | cons e l ih =>
    have b1 : Books (h.drop e.2 (ty e.1)) (HMap.cells ty l ++ O) := Books.drop b
    rw [List.length_cons, breaks_cons]
    by_cases hf : f = some 0
    · subst hf
      exact .inr ⟨.inl rfl, _, HMap.cells ty l, rfl, b1, by simp [HMap.cells]⟩
    · simp only [dropUntil, hf, if_false, false_or]
      rcases ih b1 (f.map (· - 1)) with ⟨h1, h2⟩ | ⟨h1, h', left, h2, h3, h4⟩
      · exact .inl ⟨h1, h2⟩
      · refine .inr ⟨h1, h', left, h2, h3, ?_⟩
        cases f with
        | none => simp [Kept.Breaks] at h1
        | some i =>
          have : i ≠ 0 := fun h => hf (by rw [h])
          simp only [Option.map_some, Option.getD_some] at h4 ⊢
          omega

/-- the books of the cache: a poisoned one is responsible for nothing, whatever buffers its map holds -/
def Balanced (eq : K → K → Bool) (ty : K → E.U) (p : PState E K) (R : List (Cell × E.U)) : Kept K → Prop
  | none => p.poisoned = true ∧ Books p.st.heap R
  | some ks => p.poisoned = false ∧ HBalanced eq ty p.st ks R

theorem Balanced.step (heq : ∀ a b, eq a b = true ↔ a = b) {p : PState E K} {R : List (Cell × E.U)} {ks : Kept K}
    (b : Balanced eq ty p R ks) (o : POp K) :
    ∃ lost : List (Cell × E.U), Balanced eq ty (p.step eq ty o).1 (lost ++ R) (Kept.step ty ks o).1 ∧
      lost.length = (Kept.step ty ks o).2.1 ∧ (p.step eq ty o).2 = (Kept.step ty ks o).2.2 := by
  cases ks with
  | none =>
    obtain ⟨hp, hb⟩ := b
    refine ⟨[], ?_⟩
    cases o <;> simp [PState.step, cachePair, lookup, debug, clear, hp, Kept.step, Balanced, hb]
  | some ks =>
    obtain ⟨hp, hb⟩ := b
    have hmap : ∀ ord : HashOrder K, Books p.st.heap (HMap.cells ty (ord.list p.st.map) ++ R) ∧
        (ord.list p.st.map).length = ks.length := fun ord =>
      ⟨hb.books.perm (((ord.perm _).map _).symm.append_right _), by
        rw [(ord.perm _).length_eq, hb.keys, List.length_map]⟩
    cases o with
    | cachePair k fails =>
      simp only [PState.step, cachePair, hp, Bool.false_eq_true, if_false, Kept.step]
      cases fails with
      | true =>
        simp only [if_true, true_or]
        exact ⟨HMap.cells ty p.st.map, ⟨rfl, hb.books⟩, by simp [HMap.cells, hb.keys], trivial⟩
      | false =>
        simp only [Bool.false_eq_true, if_false, false_or]
        have h := HBalanced.step heq ty hb (.insert k) (fun _ hh => by cases hh)
        simp only [HState.step, KHash.step] at h
        rcases hb.books.alloc (ty k) with ⟨hs, h', x, h1, h2⟩ | ⟨hs, h', h1, h2⟩
        · simp only [h1, hs, if_true, not_true, if_false] at h ⊢
          obtain ⟨lost, h3, h4⟩ := h
          by_cases hk : k ∈ ks
          · simp only [hk, if_true] at h3 h4 ⊢
            exact ⟨lost, ⟨rfl, h3⟩, h4, trivial⟩
          · simp only [hk, if_false] at h3 h4 ⊢
            exact ⟨lost, ⟨rfl, h3⟩, h4, trivial⟩
        · simp only [h1, hs, not_false_eq_true, if_true]
          exact ⟨HMap.cells ty p.st.map, ⟨rfl, h2⟩, by simp [HMap.cells, hb.keys], trivial⟩
    | lookup k fails =>
      simp only [PState.step, lookup, hp, Bool.false_eq_true, if_false, Kept.step]
      rcases hb.get_iff heq k with ⟨y, m1, m2, h3, h4, h5, h6⟩ | ⟨h3, h4⟩
      · have hin : (y, ty k) ∈ HMap.cells ty p.st.map ++ R := List.mem_append_left _ (by simp [HMap.cells, h5])
        simp only [h3, h4]
        cases fails with
        | true => exact ⟨[], ⟨rfl, hb.keys, hb.nodup, hb.storable, hb.books.use hin⟩, rfl, rfl⟩
        | false => exact ⟨[], ⟨rfl, hb.keys, hb.nodup, hb.storable, HBalanced.cloneOut hb.books hin⟩, rfl, rfl⟩
      · simp only [h3, h4]
        exact ⟨[], ⟨hp, hb⟩, rfl, rfl⟩
    | debug ord failsAt =>
      simp only [PState.step, debug, hp, Bool.false_eq_true, if_false, Kept.step]
      obtain ⟨h1, h2⟩ := useUntil_books (ty := ty) (ord.list p.st.map) hb.books (fun e he =>
        List.mem_append_left _ (List.mem_map.2 ⟨e, (ord.perm _).mem_iff.1 he, rfl⟩)) failsAt
      rw [(hmap ord).2] at h2
      refine ⟨[], ⟨rfl, hb.keys, hb.nodup, hb.storable, h1⟩, rfl, ?_⟩
      by_cases hB : Kept.Breaks failsAt ks.length
      · simp [hB, h2.2 hB]
      · have : (useUntil ty p.st.heap (ord.list p.st.map) failsAt).2 = true := by
          rw [← Bool.not_eq_false]; exact fun h => hB (h2.1 h)
        simp [hB, this]
    | clear ord failsAt =>
      simp only [PState.step, clear, hp, Bool.false_eq_true, if_false, Kept.step]
      have := dropUntil_books (ty := ty) (ord.list p.st.map) (hmap ord).1 failsAt
      rw [(hmap ord).2] at this
      rcases this with ⟨h1, h', h2, h3⟩ | ⟨h1, h', left, h2, h3, h4⟩
      · simp only [h1, h2, if_false]
        exact ⟨[], ⟨rfl, rfl, .nil, (fun k hk => by cases hk), h3⟩, rfl, trivial⟩
      · simp only [h1, h2, if_true]
        exact ⟨left, ⟨rfl, h3⟩, h4, trivial⟩

theorem Balanced.runFrom (heq : ∀ a b, eq a b = true ↔ a = b) {p : PState E K} {R : List (Cell × E.U)} {ks : Kept K}
    (b : Balanced eq ty p R ks) (os : List (POp K)) :
    ∃ lost : List (Cell × E.U), Balanced eq ty (p.runFrom eq ty os).1 (lost ++ R) (Kept.runFrom ty ks os).1 ∧
      lost.length = (Kept.runFrom ty ks os).2.1 ∧ (p.runFrom eq ty os).2 = (Kept.runFrom ty ks os).2.2 := by
  induction os generalizing p R ks with
  | nil => exact ⟨[], b, rfl, rfl⟩
  | cons o os ih =>
    obtain ⟨l1, b1, h1, h2⟩ := b.step heq o
    obtain ⟨l2, b2, h3, h4⟩ := ih b1
    refine ⟨l2 ++ l1, ?_, ?_, ?_⟩
    · rw [List.append_assoc]; exact b2
    · simp only [Kept.runFrom, List.length_append]
      rw [h1, h3]; omega
    · simp only [PState.runFrom, Kept.runFrom]
      rw [h2, h4]

theorem Balanced.new : Balanced eq ty (PState.new : PState E K) [] (some []) := ⟨rfl, HBalanced.new⟩

theorem Balanced.finish {p : PState E K} {R : List (Cell × E.U)} {ks : Kept K} (b : Balanced eq ty p R ks)
    (ord : HashOrder K) (failsAt : Option Nat) :
    ∃ lost : List (Cell × E.U), Books (p.finish ty ord failsAt).1 (lost ++ R) ∧
      lost.length = (Kept.finish failsAt ks).1 ∧ (p.finish ty ord failsAt).2 = (Kept.finish failsAt ks).2 := by
  cases ks with
  | none => exact ⟨[], by simpa [PState.finish, b.1] using b.2, rfl, by simp [PState.finish, b.1, Kept.finish]⟩
  | some ks =>
    obtain ⟨hp, hb⟩ := b
    have := dropUntil_books (ty := ty) (ord.list p.st.map)
      (hb.books.perm (((ord.perm _).map _).symm.append_right _)) failsAt
    rw [(ord.perm _).length_eq, ← List.length_map (f := Prod.fst), ← hb.keys] at this
    simp only [PState.finish, hp, Bool.false_eq_true, if_false, Kept.finish]
    rcases this with ⟨h1, h', h2, h3⟩ | ⟨h1, h', left, h2, h3, h4⟩
    · simp only [h1, h2, if_false]
      exact ⟨[], h3, rfl, trivial⟩
    · simp only [h1, h2, if_true]
      exact ⟨left, h3, h4, trivial⟩

end PState

/-- **C75**: whatever clones, printers and destructors panic inside the cache, in whatever order the hash map is
traversed, and however often the caller catches the panic and goes on, no value is dropped twice, used after its
drop, or accessed at another type; this includes the final drop of the cache. -/
theorem C75_sound (heq : ∀ a b, eq a b = true ↔ a = b) (os : List (POp K)) (ord : HashOrder K)
    (failsAt : Option Nat) : Sound ((PState.run eq ty os).1.finish ty ord failsAt).1.log := by
  obtain ⟨_, b, -⟩ := (PState.Balanced.new (eq := eq) (ty := ty)).runFrom heq os
  obtain ⟨_, b', -⟩ := b.finish ord failsAt
  exact b'.sound

/-- C75: the same while the program runs -/
theorem C75_sound_running (heq : ∀ a b, eq a b = true ↔ a = b) (os : List (POp K)) :
    Sound (PState.run eq ty os).1.st.heap.log := by
  obtain ⟨_, b, -⟩ := (PState.Balanced.new (eq := eq) (ty := ty)).runFrom heq os
  revert b
  cases (Kept.runFrom ty (some []) os).1 with
  | none => exact fun b => b.2.sound
  | some ks => exact fun b => b.2.books.sound

/-- **C76**: which calls return and how many values are never released, exactly -/
theorem C76_exact (heq : ∀ a b, eq a b = true ↔ a = b) (os : List (POp K)) (ord : HashOrder K)
    (failsAt : Option Nat) :
    let r := Kept.runFrom ty (some []) os
    (PState.run eq ty os).2 = r.2.2 ∧
    ((PState.run eq ty os).1.finish ty ord failsAt).2 = (Kept.finish failsAt r.1).2 ∧
    (unreleased ((PState.run eq ty os).1.finish ty ord failsAt).1.log).length = r.2.1 + (Kept.finish failsAt r.1).1 := by
  obtain ⟨l1, b, h1, h2⟩ := (PState.Balanced.new (eq := eq) (ty := ty)).runFrom heq os
  obtain ⟨l2, b', h3, h4⟩ := b.finish ord failsAt
  refine ⟨h2, h4, b'.all.length_eq.trans ?_⟩
  rw [List.length_map, List.length_append, List.length_append, h1, h3]
  simp; omega

/-- C76: a poisoned cache stays poisoned: every later call and the final drop panic, and do nothing else -/
theorem C76_poisoned_forever (p : PState E K) (hp : p.poisoned = true) (os : List (POp K)) (ord : HashOrder K)
    (failsAt : Option Nat) :
    p.runFrom eq ty os = (p, os.map (fun _ => false)) ∧ p.finish ty ord failsAt = (p.st.heap, false) := by
  refine ⟨?_, by simp [PState.finish, hp]⟩
  induction os with
  | nil => rfl
  | cons o os ih =>
    have h : p.step eq ty o = (p, false) := by
      cases o <;> simp [PState.step, PState.cachePair, PState.lookup, PState.debug, PState.clear, hp]
    simp only [PState.runFrom, h, ih, List.map_cons]

/-- C76: a call that returns does not poison, and panics while looking up or printing are harmless: they leave the
map and the lock as they were -/
theorem C76_harmless_partial (p : PState E K) (hp : p.poisoned = false) (o : POp K) :
    ((p.step eq ty o).2 = true → (p.step eq ty o).1.poisoned = false) ∧
    (∀ k fails, o = .lookup k fails → (p.step eq ty o).1.poisoned = false ∧ (p.step eq ty o).1.st.map = p.st.map) ∧
    (∀ ord f, o = .debug ord f → (p.step eq ty o).1.poisoned = false ∧ (p.step eq ty o).1.st.map = p.st.map) := by
  refine ⟨fun h => ?_, ?_, ?_⟩
  · cases o with
    | cachePair k fails =>
      revert h
      simp only [PState.step, PState.cachePair, hp, Bool.false_eq_true, if_false]
      cases fails with
      | true => simp
      | false =>
        simp only [Bool.false_eq_true, if_false]
        cases hh : p.st.heap.alloc (ty k) with
        | mk h ob => cases ob <;> simp
    | lookup k fails =>
      simp only [PState.step, PState.lookup, hp, Bool.false_eq_true, if_false]
      cases HMap.get eq p.st.map k with
      | none => exact hp
      | some x => cases fails <;> rfl
    | debug ord f => simp [PState.step, PState.debug, hp]
    | clear ord f =>
      revert h
      simp only [PState.step, PState.clear, hp, Bool.false_eq_true, if_false]
      cases hh : PState.dropUntil ty p.st.heap (ord.list p.st.map) f with
      | mk h ok => cases ok <;> simp
  · rintro k fails rfl
    simp only [PState.step, PState.lookup, hp, Bool.false_eq_true, if_false]
    cases HMap.get eq p.st.map k with
    | none => exact ⟨hp, rfl⟩
    | some x => cases fails <;> exact ⟨rfl, rfl⟩
  · rintro ord f rfl
    simp [PState.step, PState.debug, hp]

/-- **C76 is refuted**: one panicking clone while a pair is being cached disables the cache for good.  Values that
were cached before are lost to lookups, which all panic from then on, and are never dropped.  The same happens
when a destructor panics in `clear`: the destructors of the other values never run. -/
theorem C76_refuted (heq : ∀ a b, eq a b = true ↔ a = b) (k : K) (hs : Storable (E.layout (ty k)))
    (ord : HashOrder K) :
    (PState.run eq ty [.cachePair k false, .cachePair k true, .lookup k false, .clear ord none]).2 =
      [true, false, false, false] ∧
    (unreleased ((PState.run eq ty [.cachePair k false, .cachePair k true]).1.finish ty ord none).1.log).length = 1 ∧
    (∀ k', k' ≠ k → Storable (E.layout (ty k')) →
      (PState.run eq ty [.cachePair k false, .cachePair k' false, .clear ord (some 0), .cachePair k false]).2 =
        [true, true, false, false] ∧
      (unreleased ((PState.run eq ty [.cachePair k false, .cachePair k' false, .clear ord (some 0)]).1.finish ty ord
        none).1.log).length = 1) := by
  refine ⟨?_, ?_, fun k' hk hs' => ⟨?_, ?_⟩⟩
  · rw [(C76_exact heq _ ord none).1]
    simp [Kept.runFrom, Kept.step, hs]
  · rw [(C76_exact heq _ ord none).2.2]
    simp [Kept.runFrom, Kept.step, Kept.finish, hs]
  · rw [(C76_exact heq _ ord none).1]
    simp [Kept.runFrom, Kept.step, hs, hs', hk, Kept.Breaks]
  · rw [(C76_exact heq _ ord none).2.2]
    simp [Kept.runFrom, Kept.step, Kept.finish, hs, hs', hk, Kept.Breaks]

/-- C58, when a destructor panics while the defaults are dropped (at the value numbered `i` in whatever order the hash
map is traversed): no value is dropped twice, but the values after it are never dropped -/
theorem C58_drop_panics_partial (heq : ∀ a b, eq a b = true ↔ a = b) (opTy : K → E.U) (os : List (HOp E K))
    (ho : KHash.Tame ty [] os) (ord : HashOrder K) (failsAt : Option Nat) :
    let r := (HState.run eq ty opTy os).finishUntil ty ord failsAt
    let n := (KHash.kept ty [] os).length
    Sound r.1.log ∧
    (r.2 = true ↔ ∀ i, failsAt = some i → n ≤ i) ∧
    (unreleased r.1.log).length = KHash.leaks ty [] os +
      match failsAt with
      | some i => n - (i + 1)
      | none => 0 := by
  obtain ⟨R, b, h⟩ := HBalanced.new.run heq opTy os ho
  have := PState.dropUntil_books (ty := ty) (ord.list (HState.run eq ty opTy os).map)
    (b.books.perm (((ord.perm _).map _).symm.append_right _)) failsAt
  have hlen : (ord.list (HState.run eq ty opTy os).map).length = (KHash.kept ty [] os).length := by
    rw [(ord.perm _).length_eq, ← List.length_map (f := Prod.fst)]
    exact congrArg List.length b.keys.symm
  rw [hlen] at this
  have hb : ¬ Kept.Breaks failsAt (KHash.kept ty [] os).length ↔
      ∀ i, failsAt = some i → (KHash.kept ty [] os).length ≤ i := by
    simp [Kept.Breaks]
  simp only [List.length_nil, Nat.zero_add] at h
  intro r n
  rcases this with ⟨h1, h', h2, h3⟩ | ⟨h1, h', left, h2, h3, h4⟩
  · have h1' := hb.1 h1
    have hr : r = (h', true) := h2
    rw [hr]
    refine ⟨h3.sound, by simpa using h1', ?_⟩
    rw [h3.all.length_eq, List.length_map, h]
    cases failsAt with
    | none => rfl
    | some i => have := h1' i rfl; simp only; omega
  · have hr : r = (h', false) := h2
    rw [hr]
    refine ⟨h3.sound, ?_, ?_⟩
    · rw [← hb]; simp [h1]
    · rw [h3.all.length_eq, List.length_map, List.length_append, h, h4]
      obtain ⟨i, rfl, hi⟩ := h1
      simp only [Option.getD_some]
      omega

/-- C58 refuted once more: of two registered defaults, one is never dropped if the destructor of the other panics -/
theorem C58_refuted_drop (heq : ∀ a b, eq a b = true ↔ a = b) (opTy : K → E.U) (k k' : K) (hk : k' ≠ k)
    (hs : Storable (E.layout (ty k))) (hs' : Storable (E.layout (ty k'))) (ord : HashOrder K) :
    let r := (HState.run eq ty opTy [.insert k, .insert k']).finishUntil ty ord (some 0)
    r.2 = false ∧ (unreleased r.1.log).length = 1 := by
  obtain ⟨-, h1, h2⟩ := C58_drop_panics_partial (ty := ty) heq opTy [.insert k, .insert k']
    (by simp [KHash.Tame]) ord (some 0)
  refine ⟨?_, ?_⟩
  · rw [← Bool.not_eq_true, h1]
    simp [KHash.kept, KHash.step, hs, hs', hk]
  · rw [h2]
    simp [KHash.kept, KHash.leaks, KHash.step, hs, hs', hk]

/-- the hypotheses are met: keys are numbers, values are flags -/
example : (∀ a b : Nat, (a == b) = true ↔ a = b) ∧ Storable (demo.layout false) ∧
    Nonempty (HashOrder Nat) :=
  ⟨fun _ _ => beq_iff_eq, by decide, ⟨⟨fun m => m, fun m => .refl m⟩⟩⟩

end BSQ
