import Verif.Proofs.Hostile
import Verif.Props.Ledger
import Mathlib.Data.Nat.Log
/-!
# C98: user code that does whatever it likes
-/
namespace BSQ
variable {E : Env} {Q : Type} {A : Addr E}

theorem runHostile_snoc (os : List (XOp E Q)) (o : XOp E Q) :
    LState.runHostile A (os ++ [o]) = (LState.runHostile A os).hostile A o := by
  simp [LState.runHostile]

theorem runHostile_inOrder (os : List (XOp E Q)) (h : ∀ o ∈ os, o.Orderly A) :
    ∀ m ∈ (LState.runHostile A os).maps, StatsInOrder A m := by
  induction os using List.reverseRecOn with
  | nil => intro m hm; cases hm
  | append_singleton os o ih =>
    rw [runHostile_snoc]
    exact inOrder_step (ih fun o ho => h o (by simp [ho])) o (h o (by simp))

open Classical in
theorem xbooks (os : List (XOp E Q)) (h : (∀ o ∈ os, ¬ o.ReadsRange) ∨ ∀ o ∈ os, o.Orderly A) :
    XBooks (os.countP fun o => decide o.MayLeak) (LState.runHostile A os) := by
  induction os using List.reverseRecOn with
  | nil => exact ⟨[], by simp, Books.new⟩
  | append_singleton os o ih =>
    rw [runHostile_snoc, List.countP_append, List.countP_singleton]
    have := (ih (h.imp (fun h o ho => h o (by simp [ho])) fun h o ho => h o (by simp [ho]))).step (A := A) o
      (fun hr => by
        rcases h with h | h
        · exact absurd hr (h o (by simp))
        · exact runHostile_inOrder os fun o ho => h o (by simp [ho]))
    simpa using this

theorem XBooks.finish {n : Nat} {st : LState E Q} (b : XBooks n st) :
    Sound st.heap.log ∧ Sound st.finish.log ∧ (unreleased st.finish.log).length ≤ n := by
  obtain ⟨R, hR, b⟩ := b
  have h1 : ∀ (ms : List (LMap E Q)) (h : Heap E.U), Books h (ms.flatMap LMap.cells ++ R) →
      Books (ms.foldl LMap.dropAll h) R := by
    intro ms
    induction ms with
    | nil => exact fun h b => b
    | cons m ms ih =>
      intro h b
      refine ih _ (Books.dropAll (b.perm ?_))
      simp
  have b' := h1 _ _ b
  refine ⟨b.sound, b'.sound, ?_⟩
  rw [show st.finish = st.maps.foldl LMap.dropAll st.heap from rfl, b'.all.length_eq, List.length_map]
  exact hR

open Classical in
/-- **C98** Whatever user code does, however it answers comparisons and wherever it panics: a program that uses keys
(and clones, clears, extends and drops maps) accesses each value at its own type, not after it is gone, and drops it at
most once.  At most one value is leaked per insertion. -/
theorem C98_keyed_sound (os : List (XOp E Q)) (h : ∀ o ∈ os, ¬ o.ReadsRange) :
    Sound (LState.runHostile A os).heap.log ∧ Sound (LState.runHostile A os).finish.log ∧
    (unreleased (LState.runHostile A os).finish.log).length ≤ os.countP fun o => decide o.MayLeak :=
  (xbooks os (.inl h)).finish

open Classical in
/-- **C98** With reading of ranges the same holds if sorting puts the stats in order and iterators given to `extend` do
not panic.  At most one value is leaked per insertion and per query in which user code panics. -/
theorem C98_sound (os : List (XOp E Q)) (h : ∀ o ∈ os, o.Orderly A) :
    Sound (LState.runHostile A os).heap.log ∧ Sound (LState.runHostile A os).finish.log ∧
    (unreleased (LState.runHostile A os).finish.log).length ≤ os.countP fun o => decide o.MayLeak :=
  (xbooks os (.inr h)).finish

/-! ### what a call about one stat can do to others -/

theorem place_others {m : LMap E Q} {s : StatInst E} {a : Answers Q} {r : Except Nat Nat}
    (hs : m.searchA A s a = some r) (q : Qualifier Q) (x : Cell) :
    (LMap.place m q s x r).filter (fun e => decide (e.stat ≠ s)) = m.filter (fun e => decide (e.stat ≠ s)) := by
  cases r with
  | ok i =>
    obtain ⟨pre, e, post, rfl, rfl, rfl⟩ := Vec.searchA_ok hs
    simp only [LMap.place]
    rw [List.modify_eq_take_cons_drop (h := by simp)]
    simp
  | error i =>
    obtain ⟨pre, post, rfl, rfl, -⟩ := Vec.searchA_error hs
    simp only [LMap.place]
    rw [insertIdx_mid]
    simp

/-- **C98** A call about a stat leaves the entries of other stats, and other maps, as they are: the same entries in the
same order, whatever the comparisons of the call answer. -/
theorem C98_others (st : LState E Q) (o : XOp E Q) (i : Nat) (s : StatInst E) (ho : o.about = some (i, s)) :
    (∀ j, j ≠ i → (st.hostile A o).maps[j]? = st.maps[j]?) ∧
    ((st.hostile A o).maps[i]?).map (fun m => m.filter (fun e => decide (e.stat ≠ s))) =
      (st.maps[i]?).map (fun m => m.filter (fun e => decide (e.stat ≠ s))) := by
  have key : ∀ (f : Heap E.U → LMap E Q → Heap E.U × LMap E Q),
      (∀ h m, ((f h m).2).filter (fun e => decide (e.stat ≠ s)) = m.filter (fun e => decide (e.stat ≠ s))) →
      (∀ j, j ≠ i → (st.on i f).maps[j]? = st.maps[j]?) ∧
      ((st.on i f).maps[i]?).map (fun m => m.filter (fun e => decide (e.stat ≠ s))) =
        (st.maps[i]?).map (fun m => m.filter (fun e => decide (e.stat ≠ s))) := by
    intro f hf
    unfold LState.on
    cases hi : st.maps[i]? with
    | none => exact ⟨fun _ _ => rfl, by rw [hi]⟩
    | some m =>
      obtain ⟨hlt, -⟩ := List.getElem?_eq_some_iff.1 hi
      refine ⟨fun j hj => by simp [hj.symm], ?_⟩
      simp only [List.getElem?_set, hlt, if_true, Option.map_some, hf]
  cases o with
  | insert i' q s' a =>
    cases ho
    refine key _ fun h m => ?_
    simp only [LMap.insertA]
    split
    · rfl
    · split
      · rfl
      · rename_i hr; exact place_others hr q _
  | get i' s' a =>
    cases ho
    refine key _ fun h m => ?_
    simp only [LMap.getA]
    split
    · split <;> rfl
    · rfl
  | modify i' q s' a fails =>
    cases ho
    refine key _ fun h m => ?_
    simp only [LMap.modifyA]
    split
    · rfl
    · split <;> rfl
    · rename_i hr
      split
      · rfl
      · split
        · rfl
        · exact place_others hr q _
  | remove i' s' a =>
    cases ho
    refine key _ fun h m => ?_
    simp only [LMap.removeA]
    split
    · rename_i hr
      obtain ⟨pre, e, post, rfl, rfl, rfl⟩ := Vec.searchA_ok hr
      simp only [List.getElem?_append_right (Nat.le_refl _), Nat.sub_self, List.getElem?_cons_zero]
      rw [List.eraseIdx_append_of_length_le (Nat.le_refl _)]
      simp
    · rfl
  | _ => cases ho

/-- what a call with a key may do to the map it is about: an insertion replaces the value of one entry of the stat, or
adds one; `modify` may add one; `remove` may take one away; and each may leave the map as it is -/
def XOp.MayTurn : XOp E Q → LMap E Q → LMap E Q → Prop
  | .insert _ q s _, m, m' => m' = m ∨
      (∃ pre e post b, m = pre ++ e :: post ∧ e.stat = s ∧ m' = pre ++ { e with buf := b } :: post) ∨
      ∃ pre post b, m = pre ++ post ∧ m' = pre ++ ⟨s, q, b⟩ :: post
  | .modify _ q s _ fails, m, m' => m' = m ∨
      fails = false ∧ ∃ pre post b, m = pre ++ post ∧ m' = pre ++ ⟨s, q, b⟩ :: post
  | .remove _ s _, m, m' => m' = m ∨ ∃ pre e post, m = pre ++ e :: post ∧ e.stat = s ∧ m' = pre ++ post
  | _, m, m' => m' = m

/-- **C98** A call with a key changes at most one entry, of the stat it is about, whatever the comparisons answer; `get`
changes none. -/
theorem C98_one (st : LState E Q) (o : XOp E Q) (i : Nat) (s : StatInst E) (ho : o.about = some (i, s)) (m : LMap E Q)
    (hm : st.maps[i]? = some m) : ∃ m', (st.hostile A o).maps[i]? = some m' ∧ o.MayTurn m m' := by
  have key : ∀ (f : Heap E.U → LMap E Q → Heap E.U × LMap E Q), (st.on i f).maps[i]? = some (f st.heap m).2 := by
    intro f
    obtain ⟨hlt, -⟩ := List.getElem?_eq_some_iff.1 hm
    unfold LState.on
    rw [hm]
    simp [hlt]
  cases o with
  | insert i' q s' a =>
    cases ho
    refine ⟨_, key _, ?_⟩
    simp only [LMap.insertA, XOp.MayTurn]
    split
    · exact .inl rfl
    · rename_i b _
      split
      · exact .inl rfl
      · rename_i r hr
        cases r with
        | ok j =>
          obtain ⟨pre, e, post, rfl, rfl, h⟩ := Vec.searchA_ok hr
          refine .inr (.inl ⟨pre, e, post, b, rfl, h, ?_⟩)
          simp only [LMap.place]
          rw [List.modify_eq_take_cons_drop (h := by simp)]
          simp
        | error j =>
          obtain ⟨pre, post, rfl, rfl, -⟩ := Vec.searchA_error hr
          exact .inr (.inr ⟨pre, post, b, rfl, by simp only [LMap.place]; rw [insertIdx_mid]⟩)
  | get i' s' a =>
    cases ho
    refine ⟨_, key _, ?_⟩
    simp only [LMap.getA, XOp.MayTurn]
    split
    · split <;> rfl
    · rfl
  | modify i' q s' a fails =>
    cases ho
    refine ⟨_, key _, ?_⟩
    simp only [LMap.modifyA, XOp.MayTurn]
    split
    · exact .inl rfl
    · split <;> exact .inl rfl
    · rename_i hr
      split
      · exact .inl rfl
      · rename_i hf
        split
        · exact .inl rfl
        · rename_i b _
          obtain ⟨pre, post, rfl, rfl, -⟩ := Vec.searchA_error hr
          exact .inr ⟨by simpa using hf, pre, post, b, rfl, by simp only [LMap.place]; rw [insertIdx_mid]⟩
  | remove i' s' a =>
    cases ho
    refine ⟨_, key _, ?_⟩
    simp only [LMap.removeA, XOp.MayTurn]
    split
    · rename_i hr
      obtain ⟨pre, e, post, rfl, rfl, h⟩ := Vec.searchA_ok hr
      simp only [List.getElem?_append_right (Nat.le_refl _), Nat.sub_self, List.getElem?_cons_zero]
      rw [List.eraseIdx_append_of_length_le (Nat.le_refl _)]
      exact .inr ⟨pre, e, post, rfl, h, by simp⟩
    · exact .inl rfl
  | _ => cases ho

/-- what the comparisons of a call answer -/
def XOp.answers : XOp E Q → Option (Answers Q)
  | .insert _ _ _ a | .get _ _ a | .modify _ _ _ a _ | .remove _ _ a => some a
  | _ => none

/-- **C98** A call in which a comparison panics leaves all maps as they are. -/
theorem C98_panic_unchanged (st : LState E Q) (o : XOp E Q) (i : Nat) (s : StatInst E) (ho : o.about = some (i, s))
    (a : Answers Q) (ha : o.answers = some a) (m : LMap E Q) (hm : st.maps[i]? = some m)
    (hp : m.searchA A s a = none) : (st.hostile A o).maps = st.maps := by
  have key : ∀ (f : Heap E.U → LMap E Q → Heap E.U × LMap E Q), (f st.heap m).2 = m → (st.on i f).maps = st.maps := by
    intro f hf
    unfold LState.on
    rw [hm]
    simp only [hf]
    obtain ⟨hlt, rfl⟩ := List.getElem?_eq_some_iff.1 hm
    exact List.set_getElem_self hlt
  cases o with
  | insert i' q s' a =>
    cases ho; cases ha
    refine key _ ?_
    simp only [LMap.insertA, hp]
    split <;> rfl
  | get i' s' a => cases ho; cases ha; exact key _ (by simp only [LMap.getA, hp])
  | modify i' q s' a fails => cases ho; cases ha; exact key _ (by simp only [LMap.modifyA, hp])
  | remove i' s' a => cases ho; cases ha; exact key _ (by simp only [LMap.removeA, hp])
  | _ => cases ho

/-- C98: a map with one entry, and a removal in which the only comparison panics -/
example (h : Heap demo.U) (b : Cell) :
    ((⟨h, [[⟨demoInt 0, ⟨0, 0⟩, b⟩]]⟩ : LState demo (BitVec 8)).hostile demoAddr
      (.remove 0 (demoInt 0) fun _ _ => none)).maps = [[⟨demoInt 0, ⟨0, 0⟩, b⟩]] :=
  C98_panic_unchanged _ _ 0 (demoInt 0) rfl _ rfl _ rfl rfl

/-- C98: a removal in which the comparison says that the qualifiers are equal although they are not -/
example (h : Heap demo.U) (b : Cell) :
    ((⟨h, [[⟨demoInt 0, ⟨0, 0⟩, b⟩]]⟩ : LState demo (BitVec 8)).hostile demoAddr
      (.remove 0 (demoInt 0) fun _ _ => some .eq)).maps = [[]] ∧
    (XOp.remove 0 (demoInt 0) fun _ _ => some .eq : XOp demo (BitVec 8)).MayTurn [⟨demoInt 0, ⟨0, 0⟩, b⟩] [] :=
  ⟨rfl, .inr ⟨[], _, [], rfl, rfl, rfl⟩⟩

/-! ### user code that behaves -/

/-- the steps of `Verif.Model.Ledger`: comparisons answer as the `Ord` of the qualifiers does and nothing but what is
said there panics -/
def LOp.hostile [Ord Q] [QualifierFlag Q] (A : Addr E) : LOp E Q → XOp E Q
  | .new => .new
  | .insert i q s => .insert i q s (fun _ x => some (x.cmp q))
  | .get i q s => .get i s (fun _ x => some (x.cmp q))
  | .modify i q s fails => .modify i q s (fun _ x => some (x.cmp q)) fails
  | .remove i q s => .remove i s (fun _ x => some (x.cmp q))
  | .iter i s => .iter i s none
  | .removeAll i s => .removeAll i s
  | .clear i => .clear i
  | .query i q s failsAt => .query i s fun _ j x =>
      if x.qualifiesAs q then (if failsAt = some j then .joinPanics else .join) else .skip
  | .clone i failsAt => .clone i (failsAt.map (·, true))
  | .fromIter T items fails => .fromIter T items fails false ⟨Vec.sorted A, fun _ => List.mergeSort_perm _ _⟩
  | .extend i T items => .extend i T items false ⟨Vec.sorted A, fun _ => List.mergeSort_perm _ _⟩
  | .dropMap i => .dropMap i

theorem cloneAllA_right (h : Heap E.U) (l : LMap E Q) (failsAt : Option Nat) :
    LMap.cloneAllA h l (failsAt.map (·, true)) = LMap.cloneAll h l failsAt := by
  induction l generalizing h failsAt with
  | nil => rfl
  | cons e l ih =>
    rcases failsAt with _ | _ | n
    · simp only [LMap.cloneAllA, LMap.cloneAll, Option.map_none, reduceCtorEq, if_false]
      rw [← Option.map_none (f := fun n => (n, true)), ih]
    · simp [LMap.cloneAllA, LMap.cloneAll]
    · simp only [LMap.cloneAllA, LMap.cloneAll, Option.map_some, Option.some.injEq, Nat.add_one_ne_zero, if_false,
        Nat.add_sub_cancel]
      rw [← ih]
      rfl

theorem visitAll_right [QualifierFlag Q] (s : StatInst E) (x : Cell) (q : QualifierQuery Q) (l : LMap E Q)
    (h : Heap E.U) (n j : Nat) (failsAt : Option Nat) (v : Visits Q)
    (hv : ∀ n j x, v n j x =
      if x.qualifiesAs q then (if failsAt = some j then .joinPanics else .join) else .skip) :
    LMap.visitAll s x v n j h l =
    if (∀ k, failsAt = some k → j ≤ k) then
      LMap.joinAll s x h (l.filter fun e => e.qual.qualifiesAs q) (failsAt.map (· - j))
    else LMap.joinAll s x h (l.filter fun e => e.qual.qualifiesAs q) none := by
  induction l generalizing h n j with
  | nil => simp [LMap.visitAll, LMap.joinAll]
  | cons e l ih =>
    unfold LMap.visitAll
    rw [hv]
    by_cases hq : e.qual.qualifiesAs q = true
    · simp only [hq, if_true, List.filter_cons_of_pos]
      rcases failsAt with _ | k
      · simp only [reduceCtorEq, if_false]
        rw [ih]
        simp [LMap.joinAll]
      · by_cases hk : k = j
        · subst hk
          simp [LMap.joinAll]
        · simp only [Option.some.injEq, hk, if_false]
          rw [ih]
          by_cases hjk : j ≤ k
          · have h1 : j + 1 ≤ k := by omega
            have h2 : k - j ≠ 0 := by omega
            simp [hjk, h1, LMap.joinAll, h2, Nat.sub_sub]
          · have h1 : ¬ j + 1 ≤ k := by omega
            simp [hjk, h1, LMap.joinAll]
    · simp only [Bool.not_eq_true] at hq
      simp only [hq, Bool.false_eq_true, if_false]
      rw [ih, List.filter_cons_of_neg (by simp [hq])]

/-- **C98** User code that behaves is a special case: the steps here are then those of C12 and its companions. -/
theorem C98_agrees [Ord Q] [QualifierFlag Q] (st : LState E Q) (o : LOp E Q) :
    st.hostile A (o.hostile A) = st.step A o := by
  cases o with
  | insert i q s =>
    simp only [LOp.hostile, LState.hostile, LState.step]
    congr 1
    funext h m
    simp only [LMap.insertA, LMap.insert, Vec.searchA_right]
    rcases h.alloc s.ty with ⟨h1, _ | b⟩
    · rfl
    · simp only [LMap.store, Vec.put]
      cases m.search A q s <;> rfl
  | get i q s =>
    simp only [LOp.hostile, LState.hostile, LState.step]
    congr 1
    funext h m
    simp only [LMap.getA, LMap.get, Vec.searchA_right, Vec.find]
    cases m.search A q s with
    | error j => rfl
    | ok j => cases hj : m[j]? <;> simp [hj]
  | modify i q s fails =>
    simp only [LOp.hostile, LState.hostile, LState.step]
    congr 1
    funext h m
    simp only [LMap.modifyA, LMap.modify, Vec.searchA_right, Vec.find]
    cases hs : m.search A q s with
    | error j =>
      simp only
      cases fails with
      | true => rfl
      | false =>
        rcases h.alloc s.ty with ⟨h1, _ | b⟩
        · rfl
        · simp [LMap.store, Vec.put, hs, LMap.place]
    | ok j =>
      have hj : j < m.length := by
        obtain ⟨pre, e, post, rfl, rfl, -⟩ := Vec.searchA_ok (a := fun _ x => some (x.cmp q))
          ((Vec.searchA_right q).trans (congrArg some hs))
        simp
      simp [hj]
  | remove i q s =>
    simp only [LOp.hostile, LState.hostile, LState.step]
    congr 1
    funext h m
    simp only [LMap.removeA, LMap.remove, Vec.searchA_right, Vec.pull]
    cases hs : m.search A q s with
    | error j => rfl
    | ok j =>
      have hj : j < m.length := by
        obtain ⟨pre, e, post, rfl, rfl, -⟩ := Vec.searchA_ok (a := fun _ x => some (x.cmp q))
          ((Vec.searchA_right q).trans (congrArg some hs))
        simp
      simp [hj]
  | query i q s failsAt =>
    simp only [LOp.hostile, LState.hostile, LState.step]
    congr 1
    funext h m
    simp only [LMap.queryA, LMap.query]
    rcases h.alloc s.ty with ⟨h1, _ | b⟩
    · rfl
    · simp only
      cases m.slice A s with
      | error _ => rfl
      | ok l =>
        simp only
        rw [visitAll_right s b q l h1 0 0 failsAt _ fun _ _ _ => rfl]
        simp
  | clone i failsAt =>
    simp only [LOp.hostile, LState.hostile, LState.step]
    cases st.maps[i]? with
    | none => rfl
    | some m =>
      simp only [LMap.cloneA, LMap.clone, cloneAllA_right]
      rfl
  | fromIter T items fails =>
    simp only [LOp.hostile, LState.hostile, LState.step, LMap.fromIterA, LMap.fromIter]
    rcases LMap.entries T fails st.heap items with ⟨h1, _ | l⟩ <;> rfl
  | extend i T items =>
    simp only [LOp.hostile, LState.hostile, LState.step]
    congr 1
  | _ => rfl

/-- **C98** The hypothesis of `C98_sound` on sorting holds for sorting with a right `Ord`. -/
theorem C98_sorted [Ord Q] [Std.TransOrd Q] [Std.LawfulEqOrd Q] (o : LOp E Q) [QualifierFlag Q] :
    (o.hostile A).Orderly A := by
  cases o with
  | fromIter T items fails => exact fun l => (Vec.sorted_wsorted l).stat_le
  | extend i T items => exact ⟨rfl, fun l => (Vec.sorted_wsorted l).stat_le⟩
  | _ => exact True.intro

/-! ### which comparisons matter -/

theorem bsLoopA_panicsAt (f : Nat → Nat → Option Ordering) (N : Nat) (K : Nat → Prop)
    (hf : ∀ j i, i < N → (f j i = none ↔ K j)) (fuel n base size : Nat) (hs : size ≤ fuel + 1) (hN : base + size ≤ N)
    (h0 : 0 < size) :
    ((∃ k, n ≤ k ∧ k < n + Nat.clog 2 size ∧ K k) → bsLoopA f fuel n base size = none) ∧
    (¬ (∃ k, n ≤ k ∧ k < n + Nat.clog 2 size ∧ K k) →
      ∃ b, b < N ∧ bsLoopA f fuel n base size = some (b, n + Nat.clog 2 size)) := by
  induction fuel generalizing n base size with
  | zero =>
    rw [Nat.clog_of_right_le_one (by omega)]
    exact ⟨fun ⟨k, h⟩ => by omega, fun _ => ⟨base, by omega, rfl⟩⟩
  | succ m ih =>
    rw [bsLoopA]
    by_cases h1 : 1 < size
    · rw [if_pos h1]
      have hc : Nat.clog 2 size = Nat.clog 2 (size - size / 2) + 1 := by
        rw [Nat.clog_of_two_le (n := size) (by norm_num) (by omega)]
        congr 2; omega
      have hp := hf n (base + size / 2) (by omega)
      dsimp only
      cases hv : f n (base + size / 2) with
      | none => exact ⟨fun _ => rfl, fun h => absurd ⟨n, le_refl n, by omega, hp.1 hv⟩ h⟩
      | some c =>
        have hk : ¬ K n := fun e => by rw [hp.2 e] at hv; cases hv
        have := ih (n + 1) (if c = .gt then base else base + size / 2) (size - size / 2) (by omega)
          (by split <;> omega) (by omega)
        dsimp only
        rw [hc]
        refine ⟨fun ⟨k, h2, h3, h4⟩ => this.1 ⟨k, ?_, by omega, h4⟩, fun h => ?_⟩
        · rcases Nat.lt_or_ge n k with h | h
          · exact h
          · exact absurd (Nat.le_antisymm h h2 ▸ h4) hk
        · obtain ⟨b, hb, e⟩ := this.2 fun ⟨k, h2, h3, h4⟩ => h ⟨k, by omega, by omega, h4⟩
          exact ⟨b, hb, by rw [e]; congr 2; omega⟩
    · rw [if_neg h1, Nat.clog_of_right_le_one (by omega)]
      exact ⟨fun ⟨k, h⟩ => by omega, fun _ => ⟨base, by omega, rfl⟩⟩

/-- **C98** Comparisons are made one after the other, each may answer differently: a search among `n > 0` entries of one
stat panics exactly if one of its first `⌈log2 n⌉ + 1` comparisons of qualifiers is one that panics (the `j`-th does if
`K j`), whatever the others answer. -/
theorem C98_panics_at {B : Type} (m : Vec E Q B) (s : StatInst E) (hs : ∀ e ∈ m, e.stat.cmp A s = .eq) (hm : m ≠ [])
    (a : Answers Q) (K : Nat → Prop) (ha : ∀ j x, a j x = none ↔ K j) :
    m.searchA A s a = none ↔ ∃ k, k < Nat.clog 2 m.length + 1 ∧ K k := by
  have hl : 0 < m.length := List.length_pos_iff.2 hm
  have hf : ∀ j i, i < m.length → (m.probe A s a j i = none ↔ K j) := by
    intro j i hi
    have h1 : m[i]? = some m[i] := List.getElem?_eq_getElem hi
    have h2 := hs m[i] (List.getElem_mem hi)
    simp only [Vec.probe, h1, Option.elim, h2]
    exact ha j _
  have := bsLoopA_panicsAt (m.probe A s a) m.length K hf m.length 0 0 m.length (by omega) (by omega) hl
  rw [Nat.zero_add] at this
  unfold Vec.searchA
  rw [if_neg (by omega)]
  by_cases h : ∃ k, 0 ≤ k ∧ k < Nat.clog 2 m.length ∧ K k
  · rw [this.1 h]
    obtain ⟨k, -, h1, h2⟩ := h
    exact ⟨fun _ => ⟨k, by omega, h2⟩, fun _ => rfl⟩
  · obtain ⟨b, hb, e⟩ := this.2 h
    rw [e]
    have hp := hf (Nat.clog 2 m.length) b hb
    dsimp only
    cases hv : m.probe A s a (Nat.clog 2 m.length) b with
    | none => exact ⟨fun _ => ⟨_, Nat.lt_succ_self _, hp.1 hv⟩, fun _ => rfl⟩
    | some c =>
      have hk : ¬ K (Nat.clog 2 m.length) := fun e => by rw [hp.2 e] at hv; cases hv
      refine ⟨fun h => (by cases c <;> cases h), fun ⟨k, h1, h2⟩ => ?_⟩
      rcases Nat.lt_or_ge k (Nat.clog 2 m.length) with h3 | h3
      · exact absurd ⟨k, Nat.zero_le _, h3, h2⟩ h
      · exact absurd ((by omega : k = Nat.clog 2 m.length) ▸ h2) hk

theorem bsLoopA_some (f : Nat → Nat → Option Ordering) (N c : Nat) (hf : ∀ j i, j < c → i < N → f j i ≠ none)
    (fuel n base size : Nat) (hs : size ≤ fuel + 1) (hN : base + size ≤ N) (h0 : 0 < size)
    (hn : n + Nat.clog 2 size < c) : ∃ b k, b < N ∧ k < c ∧ bsLoopA f fuel n base size = some (b, k) := by
  induction fuel generalizing n base size with
  | zero => exact ⟨base, n, by omega, by omega, rfl⟩
  | succ m ih =>
    rw [bsLoopA]
    by_cases h1 : 1 < size
    · rw [if_pos h1]
      have hc : Nat.clog 2 size = Nat.clog 2 (size - size / 2) + 1 := by
        rw [Nat.clog_of_two_le (n := size) (by norm_num) (by omega)]
        congr 2; omega
      have hp := hf n (base + size / 2) (by omega) (by omega)
      dsimp only
      cases hv : f n (base + size / 2) with
      | none => exact absurd hv hp
      | some c => exact ih (n + 1) _ (size - size / 2) (by omega) (by split <;> omega) (by omega) (by omega)
    · rw [if_neg h1]
      exact ⟨base, n, by omega, by omega, rfl⟩

/-- **C98** In any map, a search panics only if the comparison with the qualifier of an entry of the stat sought does,
as one of the first `⌈log2 n⌉ + 1`. -/
theorem C98_panics_only {B : Type} (m : Vec E Q B) (s : StatInst E) (a : Answers Q) (h : m.searchA A s a = none) :
    ∃ j, j < Nat.clog 2 m.length + 1 ∧ ∃ e ∈ m, e.stat.cmp A s = .eq ∧ a j e.qual = none := by
  by_contra hn
  have hf : ∀ j i, j < Nat.clog 2 m.length + 1 → i < m.length → m.probe A s a j i ≠ none := by
    intro j i hj hi hp
    have h1 : m[i]? = some m[i] := List.getElem?_eq_getElem hi
    simp only [Vec.probe, h1, Option.elim] at hp
    split at hp
    · rename_i he
      exact hn ⟨j, hj, m[i], List.getElem_mem hi, he, hp⟩
    · cases hp
  unfold Vec.searchA at h
  split at h
  · cases h
  · obtain ⟨b, k, hb, hk, e⟩ := bsLoopA_some (m.probe A s a) m.length _ hf m.length 0 0 m.length (by omega) (by omega)
      (by omega) (by omega)
    rw [e] at h
    dsimp only at h
    split at h
    · rename_i hp; exact hf k b hk hb hp
    all_goals cases h

/-- C98: three entries of one stat; three comparisons are made -/
example (k : Nat) :
    Vec.searchA demoAddr ([⟨demoInt 0, ⟨0, 0⟩, ()⟩, ⟨demoInt 0, ⟨1, 0⟩, ()⟩, ⟨demoInt 0, ⟨2, 0⟩, ()⟩] : Vec demo (BitVec 8) Unit)
      (demoInt 0) (fun j _ => if j = k then none else some .lt) = none ↔ k < 3 := by
  rw [C98_panics_at _ _ (by decide +kernel) (by simp) _ (· = k) (by intro j x; simp)]
  have : Nat.clog 2 3 = 2 := by decide +kernel
  simp [this]

/-! ### which visits matter -/

/-- whether an entry is joined -/
def Visit.joins : Visit → Bool
  | .join => true
  | _ => false

theorem visitAll_list (s : StatInst E) (x : Cell) (v : Visits Q) (V : List Visit) (l : LMap E Q)
    (hl : V.length = l.length) (n j : Nat) (h : Heap E.U)
    (hv : ∀ i (hi : i < V.length) q, v (n + i) (j + (V.take i).countP Visit.joins) q = V[i]) :
    (LMap.visitAll s x v n j h l).2 = true ↔ ∀ w ∈ V, w = .skip ∨ w = .join := by
  induction l generalizing V n j h with
  | nil =>
    rw [List.length_eq_zero_iff.1 hl]
    simp [LMap.visitAll]
  | cons e l ih =>
    match V, hl, hv with
    | w :: V, hl, hv =>
      have h0 : v n j e.qual = w := hv 0 (Nat.succ_pos _) e.qual
      have hs : ∀ i (hi : i < V.length) q,
          v (n + 1 + i) (j + (if w.joins then 1 else 0) + (V.take i).countP Visit.joins) q = V[i] := by
        intro i hi q
        have := hv (i + 1) (by simpa using hi) q
        rw [List.take_succ_cons, List.countP_cons] at this
        rw [show n + 1 + i = n + (i + 1) by omega, show j + (if w.joins then 1 else 0) + (V.take i).countP Visit.joins =
          j + ((V.take i).countP Visit.joins + if w.joins then 1 else 0) by omega]
        simpa using this
      have hl' : V.length = l.length := by simpa using hl
      unfold LMap.visitAll
      rw [h0]
      cases w with
      | skip => simpa using ih V hl' (n + 1) j h (by simpa [Visit.joins] using hs)
      | join => simpa using ih V hl' (n + 1) (j + 1) _ (by simpa [Visit.joins] using hs)
      | joinPanics => simp
      | panics => simp

/-- **C98** User code may behave differently at each entry that a query comes by, knowing how many it has seen and how
many it has joined: whatever it does there, one entry after the other (`V`), the query gets to the end exactly if no
visit panics. -/
theorem C98_visits (s : StatInst E) (x : Cell) (v : Visits Q) (V : List Visit) (l : LMap E Q)
    (hl : V.length = l.length) (h : Heap E.U)
    (hv : ∀ i (hi : i < V.length) q, v i ((V.take i).countP Visit.joins) q = V[i]) :
    (LMap.visitAll s x v 0 0 h l).2 = true ↔ ∀ w ∈ V, w = .skip ∨ w = .join :=
  visitAll_list s x v V l hl 0 0 h (by simpa using hv)

/-- C98: the second entry is not joined; the third panics if it is told a wrong number -/
example (h : Heap demo.U) (e : Entry demo (BitVec 8) Cell) :
    (LMap.visitAll (demoInt 0) 0 (fun n j _ => if n = 1 then .skip else if n = 2 ∧ j ≠ 1 then .panics else .join) 0 0 h
      [e, e, e]).2 = true := by
  rw [C98_visits (demoInt 0) 0 _ [.join, .skip, .join] _ rfl h]
  · simp
  · intro i hi q
    match i, hi with
    | 0, _ => rfl
    | 1, _ => rfl
    | 2, _ => rfl

/-! ### what goes wrong -/

/-- **C98** A comparison that panics in `insert` leaks the value to be inserted: it already is in a `Buffer`, which has
no destructor. -/
theorem C98_insert_leaks :
    let os : List (XOp demo (BitVec 8)) := [.new, .insert 0 ⟨0, 0⟩ (demoInt 0) (fun _ _ => some .eq),
      .insert 0 ⟨1, 0⟩ (demoInt 0) (fun _ _ => none)]
    (LState.runHostile demoAddr os).maps.map List.length = [1] ∧
    unreleased (LState.runHostile demoAddr os).finish.log = [1] := by decide +kernel

/-- **C98** In `query_stat` a `QualifierFlag` method or a `join` that panics leaks the value assembled so far, for the
same reason; if nothing panics, it goes to the caller. -/
theorem C98_query_leaks (v : Visit) :
    let os : List (XOp demo (BitVec 8)) := [.new, .insert 0 ⟨0, 0⟩ (demoInt 0) (fun _ _ => some .eq),
      .query 0 (demoInt 0) fun _ _ _ => v]
    unreleased (LState.runHostile demoAddr os).finish.log =
      match v with
      | .skip => []
      | .join => []
      | .joinPanics => [1]
      | .panics => [1] := by
  cases v <;> decide +kernel

/-- **C98** Sorting that is interrupted by a panic, or misled by comparisons, may leave the entries of `extend` in any
order.  If it leaves them as they are, then iterating over the flag stat reads an integer stat as flags. -/
theorem C98_extend_unsorted :
    let os : List (XOp demo (BitVec 8)) := [.new, .insert 0 ⟨0, 0⟩ (demoInt 0) (fun _ _ => none),
      .insert 0 ⟨0, 0⟩ (demoFlag 0) (fun _ _ => none), .extend 0 true [(⟨0, 0⟩, 1)] false ⟨id, fun _ => .refl _⟩,
      .iter 0 (demoFlag 0) none]
    ¬ Sound (LState.runHostile demoAddr os).heap.log := by
  intro os hs
  have h1 : Mem.create 2 (demoInt 1).ty ∈ (LState.runHostile demoAddr os).heap.log := by decide +kernel
  have h2 : Mem.use 2 (demoFlag 0).ty ∈ (LState.runHostile demoAddr os).heap.log := by decide +kernel
  obtain ⟨b, a, hb⟩ := List.append_of_mem h2
  have h3 : Mem.create 2 (demoFlag 0).ty ∈ (LState.runHostile demoAddr os).heap.log := by
    rw [hb]; exact List.mem_append_left _ ((hs b _ a hb).2 rfl).1
  exact absurd h3 (by decide +kernel)

/-- C98: comparisons that contradict each other and panic, a query cut short, a clone cut short -/
example :
    let os : List (XOp demo (BitVec 8)) := [.new, .insert 0 ⟨0, 0⟩ (demoInt 0) (fun _ _ => none),
      .insert 0 ⟨0, 0⟩ (demoFlag 0) (fun _ _ => none), .insert 0 ⟨0, 0⟩ (demoInt 0) (fun n _ => some (if n = 0 then .lt else .gt)),
      .insert 0 ⟨3, 0⟩ (demoInt 0) (fun n _ => if n < 2 then some .gt else none), .iter 0 (demoInt 0) (some 1),
      .query 0 (demoInt 0) (fun n _ _ => if n = 0 then .join else .panics), .clone 0 (some (1, false)),
      .clone 0 none, .remove 0 (demoInt 0) (fun _ _ => some .eq)]
    (∀ o ∈ os, o.Orderly demoAddr) ∧
    (LState.runHostile demoAddr os).maps.map List.length = [2, 3] ∧
    (unreleased (LState.runHostile demoAddr os).finish.log).length = 2 := by
  refine ⟨?_, by decide +kernel, by decide +kernel⟩
  intro o ho
  simp only [List.mem_cons, List.not_mem_nil, or_false] at ho
  rcases ho with rfl | rfl | rfl | rfl | rfl | rfl | rfl | rfl | rfl | rfl <;> exact True.intro

end BSQ
