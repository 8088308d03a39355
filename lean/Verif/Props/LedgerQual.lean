import Verif.Spec.LedgerQual
import Verif.Props.Ledger
/-!
# C100: which qualifiers are dropped, and which are leaked
-/
namespace BSQ
set_option linter.unusedSectionVars false
variable {E : Env} {Q : Type} [BitFlags Q] [FlagSet Q] [Ord Q] [Std.TransOrd Q] [Std.LawfulEqOrd Q] [DecidableEq Q]
  {A : Addr E}
open Vec

theorem Books.look {h : Heap E.U} {O : List (Cell × E.U)} {l : LMap E Q} (b : Books h O)
    (hl : ∀ e ∈ l, (e.buf, e.stat.ty) ∈ O) : Books (QMap.look h l) O := by
  induction l generalizing h with
  | nil => exact b
  | cons e l ih =>
    exact ih (b.use (hl e List.mem_cons_self)) (fun x hx => hl x (List.mem_cons_of_mem _ hx))

theorem Books.lookMap {h : Heap E.U} {O : List (Cell × E.U)} {m : LMap E Q} (b : Books h O)
    (hm : ∀ x ∈ LMap.cells m, x ∈ O) : Books (QMap.look h m) O :=
  b.look fun e he => hm _ (List.mem_map.2 ⟨e, he, rfl⟩)

theorem Books.cloneQuals {h : Heap E.U} {O : List (Cell × E.U)} (l : LMap E Q) (b : Books h O)
    (hl : ∀ e ∈ l, (e.buf, e.stat.ty) ∈ O) (failsAt : Option Nat) :
    Books (QMap.cloneAll h l failsAt).1 (LMap.cells (QMap.cloneAll h l failsAt).2.1 ++ O) ∧
    ((QMap.cloneAll h l failsAt).2.2 = true →
      (QMap.cloneAll h l failsAt).2.1.map Entry.key = l.map Entry.key) ∧
    ((QMap.cloneAll h l failsAt).2.2 = false ↔ ∃ n, failsAt = some n ∧ n < l.length) := by
  induction l generalizing h O failsAt with
  | nil => exact ⟨b, fun _ => rfl, by simp [QMap.cloneAll]⟩
  | cons e l ih =>
    unfold QMap.cloneAll
    by_cases hf : failsAt = some 0
    · simp only [hf, if_true]
      exact ⟨((b.use (hl e List.mem_cons_self)).create e.stat.ty).drop, fun h => (by cases h), by simp⟩
    · simp only [hf, if_false]
      obtain ⟨h1, h2, h3⟩ := ih (h := ((h.use e.buf e.stat.ty).create e.stat.ty).1)
        ((b.use (hl e List.mem_cons_self)).create e.stat.ty)
        (fun x hx => List.mem_cons_of_mem _ (hl x (List.mem_cons_of_mem _ hx))) (failsAt.map (· - 1))
      refine ⟨h1.perm (List.perm_middle), fun hh => by simp only [List.map_cons, h2 hh], ?_⟩
      rw [h3]
      cases failsAt with
      | none => simp
      | some n =>
        cases n with
        | zero => exact absurd rfl hf
        | succ n => simp

namespace QAccounts

theorem search_cases {m : LMap E Q} (hm : WSorted A m) (q : Qualifier Q) (s : StatInst E) {l : List (Key E Q)}
    (hl : l.Perm (m.map Entry.key)) :
    (∃ i, m.search A q s = .ok i ∧ ⟨s, q⟩ ∈ l) ∨
    (∃ i, m.search A q s = .error i ∧ ⟨s, q⟩ ∉ l ∧ ∀ x : Cell, WSorted A (m.insertIdx i ⟨s, q, x⟩) ∧
      (m.insertIdx i ⟨s, q, x⟩).Perm (⟨s, q, x⟩ :: m)) := by
  rcases wsplit hm q s with ⟨pre, e, post, rfl, hk, hf⟩ | ⟨pre, post, rfl, hf, h1, h2⟩
  · exact .inl ⟨_, hf, hl.mem_iff.2 (by simp [← hk])⟩
  · refine .inr ⟨_, hf, fun hm => ?_, fun x => ?_⟩
    · obtain ⟨y, hy, hye⟩ := List.mem_map.1 (hl.mem_iff.1 hm)
      rcases List.mem_append.1 hy with hy | hy
      · exact (h1 y hy).ne hye
      · exact (h2 y hy).ne hye.symm
    · have hi : (pre ++ post).insertIdx pre.length ⟨s, q, x⟩ = pre ++ ⟨s, q, x⟩ :: post := by
        simp [insertIdx_mid]
      rw [hi]
      exact ⟨wsorted_insert hm x h1 h2, List.perm_middle⟩

/-- a new qualifier goes in -/
theorem stored {m m' : LMap E Q} {q : Qualifier Q} {s : StatInst E} {x : Cell} {l : List (Key E Q)}
    (hl : l.Perm (m.map Entry.key)) (hp : m'.Perm (⟨s, q, x⟩ :: m)) {h : Heap E.U} {R : List (Cell × E.U)}
    (b : Books h ((x, s.ty) :: (LMap.cells m ++ R))) :
    Books h (LMap.cells m' ++ ([] ++ R)) ∧ (l ++ [(⟨s, q⟩ : Key E Q)]).Perm (m'.map Entry.key) := by
  refine ⟨b.perm ?_, ?_⟩
  · have := (hp.map fun e : Entry E Q Cell => (e.buf, e.stat.ty)).symm
    exact List.Perm.append_right R this
  · refine List.Perm.trans ?_ (hp.map Entry.key).symm
    exact (List.perm_append_comm (l₂ := [_])).trans (hl.cons _)

theorem insert (q : Qualifier Q) (s : StatInst E) :
    Accounts A (fun h m => QMap.insert A h m q s) (fun l => ((KState.put ⟨s, q⟩ l).1, 0)) := by
  intro h m R l hm b hl
  unfold QMap.insert KState.put
  rcases b.alloc s.ty with ⟨hs, h', x, h2, h3⟩ | ⟨hs, h', h2, h3⟩
  · simp only [h2, hs, if_true]
    unfold QMap.place
    have h4 := h3.lookMap (m := m) (fun y hy => List.mem_cons_of_mem _ (List.mem_append_left _ hy))
    rcases search_cases hm q s hl with ⟨i, hi, hmem⟩ | ⟨i, hi, hmem, hx⟩
    · rw [if_pos hmem]
      simp only [hi]
      exact ⟨[], hm, h4.drop, hl, rfl⟩
    · rw [if_neg hmem]
      simp only [hi]
      obtain ⟨h5, h6⟩ := stored hl (hx x).2 h4
      exact ⟨[], (hx x).1, h5, h6, rfl⟩
  · simp only [h2, hs, if_false]
    exact ⟨[], hm, h3, hl, rfl⟩

theorem get : Accounts A (QMap.get (Q := Q)) (fun l => (l, 0)) := by
  intro h m R l hm b hl
  exact ⟨[], hm, b.lookMap (fun y hy => List.mem_append_left _ hy), hl, rfl⟩

theorem modify (q : Qualifier Q) (s : StatInst E) (fails : Bool) :
    Accounts A (fun h m => QMap.modify A h m q s fails)
      (fun l => ((if ⟨s, q⟩ ∈ l ∨ fails = true then (l, 0) else KState.put ⟨s, q⟩ l).1, 0)) := by
  intro h m R l hm b hl
  unfold QMap.modify
  have h4 := (b.create s.ty).lookMap (m := m) (fun y hy => List.mem_cons_of_mem _ (List.mem_append_left _ hy))
  rcases search_cases hm q s hl with ⟨i, hi, hmem⟩ | ⟨i, hi, hmem, hx⟩
  · simp only [hi, hmem, true_or, if_true]
    exact ⟨[], hm, Books.drop h4, hl, rfl⟩
  · simp only [hi, hmem, false_or]
    cases fails with
    | true =>
      simp only [if_true]
      exact ⟨[], hm, Books.drop h4, hl, rfl⟩
    | false =>
      simp only [Bool.false_eq_true, if_false]
      unfold KState.put
      rcases Books.fill h4 with ⟨hs, h5⟩ | ⟨hs, h', h5, h6⟩
      · have h5' : (QMap.look (h.create s.ty).1 m).fill (h.create s.ty).2 s.ty = _ := h5
        simp only [h5', hs, if_true, hmem, if_false]
        obtain ⟨h7, h8⟩ := stored hl (hx _).2 h4
        exact ⟨[], (hx _).1, h7, h8, rfl⟩
      · have h5' : (QMap.look (h.create s.ty).1 m).fill (h.create s.ty).2 s.ty = _ := h5
        simp only [h5', hs, if_false]
        exact ⟨[], hm, h6, hl, rfl⟩

theorem remove (q : Qualifier Q) (s : StatInst E) :
    Accounts A (fun h m => QMap.remove A h m q s)
      (fun l => (l.erase ⟨s, q⟩, if ⟨s, q⟩ ∈ l then 1 else 0)) := by
  intro h m R l hm b hl
  unfold QMap.remove
  have b' := b.lookMap (m := m) (fun y hy => List.mem_append_left _ hy)
  rcases wsplit hm q s with ⟨pre, e, post, rfl, hk, hf⟩ | ⟨pre, post, rfl, hf, h1, h2⟩
  · simp only [pull_found hf]
    have hst : e.stat = s := congrArg Key.stat hk
    have hmem : (⟨s, q⟩ : Key E Q) ∈ l := hl.mem_iff.2 (by simp [← hk])
    rw [if_pos hmem]
    refine ⟨[(e.buf, s.ty)], hm.sublist (by simp), b'.perm ?_, ?_, rfl⟩
    · simp only [LMap.cells, List.map_append, List.map_cons, hst]
      rw [List.perm_iff_count]
      intro a
      simp only [List.count_cons, List.count_append, List.count_nil]
      omega
    · have := hl.erase ⟨s, q⟩
      refine this.trans ?_
      simp only [List.map_append, List.map_cons, hk]
      refine (List.Perm.erase _ List.perm_middle).trans ?_
      simp
  · simp only [pull_absent hf]
    have hmem : (⟨s, q⟩ : Key E Q) ∉ l := by
      intro hm
      obtain ⟨y, hy, hye⟩ := List.mem_map.1 (hl.mem_iff.1 hm)
      rcases List.mem_append.1 hy with hy | hy
      · exact (h1 y hy).ne hye
      · exact (h2 y hy).ne hye.symm
    rw [if_neg hmem, List.erase_of_not_mem hmem]
    exact ⟨[], hm, b', hl, rfl⟩

theorem iter (s : StatInst E) : Accounts A (fun h (m : LMap E Q) => QMap.iter A h m s) (fun l => (l, 0)) := by
  intro h m R l hm b hl
  unfold QMap.iter
  simp only [slice_le hm.stat_le]
  refine ⟨[], hm, b.look fun e he => ?_, hl, rfl⟩
  exact List.mem_append_left _ (List.mem_map.2 ⟨e, (List.mem_filter.1 he).1, rfl⟩)

end QAccounts

theorem KState.on_fst (ks : KState E Q) (i : Nat) {f g : List (Key E Q) → List (Key E Q) × Nat}
    (h : ∀ l, (f l).1 = (g l).1) : (ks.on i f).1 = (ks.on i g).1 := by
  unfold KState.on
  cases ks[i]? <;> simp [h]

theorem KState.on_zero (ks : KState E Q) (i : Nat) {f : List (Key E Q) → List (Key E Q) × Nat}
    (h : ∀ l, (f l).2 = 0) : (ks.on i f).2 = 0 := by
  unfold KState.on
  cases ks[i]? <;> simp [h]

theorem Balanced.stepQuals {st : LState E Q} {ks : KState E Q} {R : List (Cell × E.U)} (b : Balanced A st ks R)
    (o : LOp E Q) :
    ∃ lost, Balanced A (QMap.step A st o) (ks.step o).1 (lost ++ R) ∧ lost.length = ks.forgets o := by
  have conv : ∀ {st' : LState E Q} {i : Nat} {f g : List (Key E Q) → List (Key E Q) × Nat},
      (∃ lost, Balanced A st' (ks.on i f).1 (lost ++ R) ∧ lost.length = (ks.on i f).2) →
      (∀ l, (f l).1 = (g l).1) → (∀ l, (f l).2 = 0) →
      ∃ lost : List (Cell × E.U), Balanced A st' (ks.on i g).1 (lost ++ R) ∧ lost.length = 0 := by
    intro st' i f g ⟨lost, h3, h4⟩ h1 h2
    rw [KState.on_fst ks i h1] at h3
    rw [KState.on_zero ks i h2] at h4
    exact ⟨lost, h3, h4⟩
  cases o with
  | new => exact ⟨[], b.push (m := []) (l := []) b.books .nil (.refl _), rfl⟩
  | insert i q s => exact conv (b.on i (QAccounts.insert q s)) (fun _ => rfl) (fun _ => rfl)
  | get i q s =>
    have := b.on i (QAccounts.get (Q := Q))
    rw [Balanced.on_same] at this
    exact this
  | modify i q s fails => exact conv (b.on i (QAccounts.modify q s fails)) (fun _ => rfl) (fun _ => rfl)
  | remove i q s =>
    obtain ⟨lost, h1, h2⟩ := b.on i (QAccounts.remove q s)
    refine ⟨lost, ?_, ?_⟩
    · rw [KState.on_fst ks i (f := fun l => (l.erase ⟨s, q⟩, if ⟨s, q⟩ ∈ l then 1 else 0))
        (g := fun l => (l.erase ⟨s, q⟩, 0)) (fun _ => rfl)] at h1
      exact h1
    · rw [h2]
      unfold KState.on
      cases h : ks[i]? <;> simp [KState.forgets, List.getD, h]
  | iter i s =>
    have := b.on i (QAccounts.iter s)
    rw [Balanced.on_same] at this
    exact this
  | removeAll i s => exact conv (b.on i (Accounts.removeAll s)) (fun _ => rfl) (fun _ => rfl)
  | clear i => exact conv (b.on i Accounts.clear) (fun _ => rfl) (fun _ => rfl)
  | query i q s failsAt => exact conv (b.on i (QAccounts.iter s)) (fun _ => rfl) (fun _ => rfl)
  | extend i T items => exact conv (b.on i (Accounts.extend T items)) (fun _ => rfl) (fun _ => rfl)
  | fromIter T items fails => exact b.step (.fromIter T items fails)
  | dropMap i => exact b.step (.dropMap i)
  | clone i failsAt =>
    refine ⟨[], ?_, rfl⟩
    cases hi : st.maps[i]? with
    | none =>
      have hk : ks[i]? = none := by
        rw [List.getElem?_eq_none_iff] at hi ⊢
        rw [b.keys.length_eq]
        exact hi
      simp only [QMap.step, KState.step, hi, hk]
      exact b
    | some m =>
      obtain ⟨k1, l, k2, m1, m2, e1, e2, h1, h2, h3, h4, h5⟩ := forall₂_split b.keys hi
      have hk : ks[i]? = some l := by subst h1; simp [e1]
      simp only [QMap.step, KState.step, hi, hk, QMap.clone]
      have hm : m ∈ st.maps := by simp [e2]
      obtain ⟨b1, b2, b3⟩ := Books.cloneQuals m b.books (fun e he => List.mem_append_left _
        (List.mem_flatMap.2 ⟨m, hm, List.mem_map.2 ⟨e, he, rfl⟩⟩)) failsAt
      have hlen : l.length = m.length := by rw [h4.length_eq, List.length_map]
      rw [hlen]
      generalize hr : QMap.cloneAll st.heap m failsAt = r at b1 b2 b3
      obtain ⟨h', l', ok⟩ := r
      cases ok with
      | true =>
        rw [if_neg (by rw [← b3]; simp)]
        exact b.push b1 ((b.sorted m hm).of_keys (b2 rfl)) (by
          rw [show l'.map Entry.key = m.map Entry.key from b2 rfl]; exact h4)
      | false =>
        rw [if_pos (b3.1 rfl)]
        exact ⟨b.keys, b.sorted, Books.dropAll b1⟩

theorem Balanced.runQuals {st : LState E Q} {ks : KState E Q} {R : List (Cell × E.U)} (b : Balanced A st ks R)
    (os : List (LOp E Q)) :
    ∃ R', Balanced A (os.foldl (QMap.step A) st) (os.foldl (fun ks o => (ks.step o).1) ks) R' ∧
      R'.length = R.length + ks.forgotten os := by
  induction os generalizing st ks R with
  | nil => exact ⟨R, b, rfl⟩
  | cons o os ih =>
    obtain ⟨lost, h1, h2⟩ := b.stepQuals o
    obtain ⟨R', h3, h4⟩ := ih h1
    refine ⟨R', h3, ?_⟩
    rw [h4, List.length_append, h2]
    simp only [KState.forgotten]
    omega

/-- C100: run any program that makes, uses, clones and drops any number of maps, with user code of values panicking
wherever it likes, and then drop all maps: no qualifier is dropped twice or used after it was dropped -/
theorem C100_sound (os : List (LOp E Q)) : Sound (QMap.run A os).finish.log := by
  obtain ⟨_, b, _⟩ := (Balanced.new (A := A)).runQuals os
  exact b.finish.sound

/-- C100: exactly how many qualifiers are never dropped: one for each `remove` that finds its key -/
theorem C100_exact (os : List (LOp E Q)) :
    (unreleased (QMap.run A os).finish.log).length = KState.forgotten [] os := by
  obtain ⟨R, b, h⟩ := (Balanced.new (A := A)).runQuals os
  refine (b.finish.all.length_eq).trans ?_
  rw [List.length_map, h]
  simp

/-- C100: a program without `remove` drops every qualifier -/
theorem C100_no_remove (os : List (LOp E Q)) (h : ∀ i q s, LOp.remove i q s ∉ os) :
    unreleased (QMap.run A os).finish.log = [] := by
  rw [← List.length_eq_zero_iff, C100_exact]
  have : ∀ (os : List (LOp E Q)) (ks : KState E Q), (∀ i q s, LOp.remove i q s ∉ os) → ks.forgotten os = 0 := by
    intro os
    induction os with
    | nil => intros; rfl
    | cons o os ih =>
      intro ks h
      have h1 : ks.forgets o = 0 := by
        cases o with
        | remove i q s => exact absurd List.mem_cons_self (h i q s)
        | _ => rfl
      unfold KState.forgotten
      rw [h1, ih _ (fun i q s hm => h i q s (List.mem_cons_of_mem _ hm))]
  exact this os [] h

/-- C100: this ledger and the one of the values describe the same maps: after any program the same keys are stored,
map for map -/
theorem C100_same_maps (os : List (LOp E Q)) :
    List.Forall₂ (fun m m' => (m.map Entry.key).Perm (m'.map Entry.key)) (QMap.run A os).maps
      (LState.run A os).maps := by
  obtain ⟨_, b, _⟩ := (Balanced.new (A := A)).runQuals os
  have b2 : ∀ (os : List (LOp E Q)) {st : LState E Q} {ks : KState E Q} {R : List (Cell × E.U)},
      Balanced A st ks R → ∃ R', Balanced A (os.foldl (LState.step A) st)
        (os.foldl (fun ks o => (ks.step o).1) ks) R' := by
    intro os
    induction os with
    | nil => intro st ks R b; exact ⟨R, b⟩
    | cons o os ih =>
      intro st ks R b
      obtain ⟨lost, h1, _⟩ := b.step o
      exact ih h1
  obtain ⟨_, b3⟩ := b2 os (Balanced.new (A := A))
  have key : ∀ {ks : KState E Q} {ms ms' : List (LMap E Q)},
      List.Forall₂ (fun l m => l.Perm (m.map Entry.key)) ks ms →
      List.Forall₂ (fun l m => l.Perm (m.map Entry.key)) ks ms' →
      List.Forall₂ (fun m m' => (m.map Entry.key).Perm (m'.map Entry.key)) ms ms' := by
    intro ks ms ms' h
    induction h generalizing ms' with
    | nil => intro h; cases h; exact .nil
    | cons hp _ ih =>
      intro h
      cases h with
      | cons hp' h' => exact .cons (hp.symm.trans hp') (ih h')
  exact key b.keys b3.keys

/-! ### the keys of the cache -/

section cache
variable {K : Type} {eq : K → K → Bool}

/-- what the cache is responsible for -/
def KeyState.cells (m : HMap K Cell) : List (Cell × Unit) := m.map (fun e => (e.2, ()))

theorem KeyState.books_look {h : Heap Unit} {O : List (Cell × Unit)} {m : HMap K Cell} (b : Books h O)
    (hm : ∀ x ∈ cells m, x ∈ O) : Books (look h m) O := by
  unfold look
  induction m generalizing h with
  | nil => exact b
  | cons e m ih =>
    exact ih (b.use (hm (e.2, ()) (by simp [cells]))) (fun x hx => hm x (by
      simp only [cells, List.map_cons, List.mem_cons]; exact .inr hx))

theorem KeyState.books_dropAll {h : Heap Unit} {O : List (Cell × Unit)} {m : HMap K Cell}
    (b : Books h (cells m ++ O)) : Books (dropAll h m) O := by
  unfold dropAll
  induction m generalizing h with
  | nil => exact b
  | cons e m ih => exact ih (h := h.drop e.2 ()) (Books.drop b)

theorem KeyState.books_step {st : KeyState K} (b : Books st.heap (cells st.map)) (o : KeyOp K) :
    Books (st.step eq o).heap (cells (st.step eq o).map) := by
  obtain ⟨h, m, p⟩ := st
  have h1 : Books (h.create ()).1 (((h.create ()).2, ()) :: cells m) := b.create ()
  have h2 := books_look (m := m) h1 (fun x hx => List.mem_cons_of_mem _ hx)
  cases o with
  | store k fails =>
    cases p with
    | true => exact h1.drop
    | false =>
      cases fails with
      | true => exact h1.drop
      | false =>
        simp only [step, Bool.false_eq_true, if_false]
        cases HMap.get eq m k with
        | some _ => exact h2.drop
        | none =>
          refine h2.perm ?_
          simp only [cells, List.map_append, List.map_cons, List.map_nil]
          exact (List.perm_append_comm (l₂ := [_])).symm
  | lookup k fails =>
    cases p with
    | true => exact b
    | false => exact h2.drop
  | clear fails =>
    cases p with
    | true => exact b
    | false =>
      cases fails with
      | true => exact b
      | false => exact books_dropAll (O := []) (by simpa using b)

/-- C100: the cache drops the query of every key exactly once, whatever panics: a stored one when the cache is cleared
or dropped, one given for a key in use at once -/
theorem C100_cache (os : List (KeyOp K)) :
    Sound (KeyState.run eq os).finish.log ∧ unreleased (KeyState.run eq os).finish.log = [] := by
  have key : ∀ (os : List (KeyOp K)) (st : KeyState K), Books st.heap (KeyState.cells st.map) →
      Books (os.foldl (KeyState.step eq) st).heap (KeyState.cells (os.foldl (KeyState.step eq) st).map) := by
    intro os
    induction os with
    | nil => intro st b; exact b
    | cons o os ih => intro st b; exact ih _ (KeyState.books_step b o)
  have b := key os KeyState.new Books.new
  have b' : Books (KeyState.run eq os).finish [] := KeyState.books_dropAll (by simpa [KeyState.run] using b)
  exact ⟨b'.sound, List.perm_nil.1 b'.all⟩

end cache

/-! ### concrete programs -/

/-- C100: the qualifier of a removed entry is leaked (stat_map.rs:47) -/
theorem C100_remove_leaks :
    unreleased (QMap.run demoAddr (Q := BitVec 8)
      [.new, .insert 0 ⟨1, 0⟩ (demoInt 0), .remove 0 ⟨1, 0⟩ (demoInt 0)]).finish.log = [0] := by
  decide +kernel

/-- C100: a program in which a key is given twice, a clone fails and stats are removed in bulk -/
example :
    (QMap.run demoAddr (Q := BitVec 8)
      [.new, .insert 0 ⟨1, 0⟩ (demoInt 0), .insert 0 ⟨1, 0⟩ (demoInt 0), .clone 0 none, .clone 0 (some 0),
        .removeAll 1 (demoInt 0)]).finish.log =
      [.create 0 true, .create 1 true, .use 0 true, .drop 1 true,
       .use 0 true, .create 2 true,
       .use 0 true, .create 3 true, .drop 3 true,
       .drop 2 true,
       .drop 0 true] := by
  decide +kernel

/-- C100: a cache in which a key is stored twice, looked up and poisoned -/
example : (KeyState.run (K := Nat) (· == ·)
      [.store 5 false, .store 5 false, .lookup 7 false, .store 6 true, .store 6 false]).finish.log =
      [.create 0 (), .create 1 (), .use 0 (), .drop 1 (), .create 2 (), .use 0 (), .drop 2 (),
       .create 3 (), .drop 3 (), .create 4 (), .drop 4 (), .drop 0 ()] := by
  decide +kernel

end BSQ
