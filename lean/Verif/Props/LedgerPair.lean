import Verif.Spec.LedgerPair
import Verif.Props.Ledger
import Verif.Props.Cast
/-!
# C82: references into pairs; C83: the values of pairs
-/
set_option linter.unusedSectionVars false
namespace BSQ
variable {E : Env} {A : Addr E}

namespace PairState

/-- the values of the pairs in scope -/
def cellsOf (l : List (Option (PairSlot E))) : List (Cell × E.U) :=
  l.filterMap (Option.map fun p => (p.cell, p.stat.ty))

/-- the state agrees with what is expected; `R` are the values nobody can reach any more -/
structure Ok (st : PairState E) (ks : KPairs E) (R : List (Cell × E.U)) : Prop where
  books : Books st.heap (cellsOf st.slots ++ R)
  keys : ks = st.slots.map (Option.map PairSlot.stat)
  fits : ∀ p, some p ∈ st.slots → Storable (E.layout p.stat.ty)
  refs : ∀ v r, st.refs v = some r → r.slot < st.slots.length ∧
    ∀ p, st.at_ r.slot = some p → r.tag ≤ p.tag ∧ (p.tag = r.tag → p.stat.ty = r.ty)

theorem at_split {st : PairState E} {i : Nat} {p : PairSlot E} (h : st.at_ i = some p) :
    ∃ l1 l2, st.slots = l1 ++ some p :: l2 ∧ l1.length = i := by
  unfold at_ at h
  rw [Option.join_eq_some_iff] at h
  obtain ⟨hi, hp⟩ := List.getElem?_eq_some_iff.1 h
  refine ⟨st.slots.take i, st.slots.drop (i + 1), ?_, by simp; omega⟩
  rw [← hp, List.getElem_cons_drop, List.take_append_drop]

theorem at_keys {st : PairState E} {ks : KPairs E} {R} (h : Ok st ks R) (i : Nat) :
    ks[i]? = st.slots[i]?.map (Option.map PairSlot.stat) := by rw [h.keys, List.getElem?_map]

theorem at_none {st : PairState E} {ks : KPairs E} {R} (h : Ok st ks R) {i : Nat} (hn : st.at_ i = none) :
    ∀ s, ks[i]? ≠ some (some s) := by
  intro s hs
  rw [at_keys h] at hs
  unfold at_ at hn
  cases hi : st.slots[i]? with
  | none => rw [hi] at hs; cases hs
  | some o =>
    rw [hi] at hs hn
    cases o with
    | none => cases hs
    | some p => cases hn

theorem at_some {st : PairState E} {ks : KPairs E} {R} (h : Ok st ks R) {i : Nat} {p : PairSlot E}
    (hp : st.at_ i = some p) : ks[i]? = some (some p.stat) := by
  rw [at_keys h]
  unfold at_ at hp
  rw [Option.join_eq_some_iff] at hp
  rw [hp]
  rfl

theorem set_mid {α : Type} (l1 l2 : List α) (x y : α) : (l1 ++ x :: l2).set l1.length y = l1 ++ y :: l2 := by
  simp

/-- the references stay right when a place changes so that its tag grows or it becomes empty -/
theorem refs_set {sl : List (Option (PairSlot E))} {i : Nat} {p : PairSlot E} {r : PairRef E} {o : Option (PairSlot E)}
    (hi : sl[i]?.join = some p) (ho : ∀ p', o = some p' → p.tag < p'.tag)
    (h : r.slot < sl.length ∧ ∀ p, sl[r.slot]?.join = some p → r.tag ≤ p.tag ∧ (p.tag = r.tag → p.stat.ty = r.ty)) :
    r.slot < (sl.set i o).length ∧ ∀ p, (sl.set i o)[r.slot]?.join = some p →
      r.tag ≤ p.tag ∧ (p.tag = r.tag → p.stat.ty = r.ty) := by
  refine ⟨by simpa using h.1, fun p' hp' => ?_⟩
  rw [List.getElem?_set] at hp'
  split at hp'
  · rename_i he
    subst he
    rw [if_pos (by exact h.1)] at hp'
    have h1 := ho p' hp'
    have h2 := (h.2 p hi).1
    exact ⟨by omega, fun h => by omega⟩
  · exact h.2 p' hp'

theorem refs_append {sl : List (Option (PairSlot E))} {r : PairRef E} {o : Option (PairSlot E)}
    (h : r.slot < sl.length ∧ ∀ p, sl[r.slot]?.join = some p → r.tag ≤ p.tag ∧ (p.tag = r.tag → p.stat.ty = r.ty)) :
    r.slot < (sl ++ [o]).length ∧ ∀ p, (sl ++ [o])[r.slot]?.join = some p →
      r.tag ≤ p.tag ∧ (p.tag = r.tag → p.stat.ty = r.ty) := by
  refine ⟨by simp; omega, fun p' hp' => ?_⟩
  rw [List.getElem?_append_left h.1] at hp'
  exact h.2 p' hp'

theorem cellsOf_mid (l1 l2 : List (Option (PairSlot E))) (o : Option (PairSlot E)) :
    cellsOf (l1 ++ o :: l2) = cellsOf l1 ++ (cellsOf [o] ++ cellsOf l2) := by
  simp only [cellsOf, List.filterMap_append, List.filterMap_cons, List.filterMap_nil]
  cases o <;> simp

/-- taking one pair's value to the front -/
theorem front (l1 l2 : List (Option (PairSlot E))) (p : PairSlot E) (R : List (Cell × E.U)) :
    (cellsOf (l1 ++ some p :: l2) ++ R).Perm ((p.cell, p.stat.ty) :: (cellsOf (l1 ++ none :: l2) ++ R)) := by
  rw [cellsOf_mid, cellsOf_mid]
  simp only [cellsOf, List.filterMap_cons, List.filterMap_nil, Option.map_some, Option.map_none, List.nil_append,
    List.append_assoc, List.cons_append]
  exact List.perm_middle

theorem countP_cells (l : List (Option (PairSlot E))) :
    (l.map (Option.map PairSlot.stat)).countP Option.isSome = (cellsOf l).length := by
  induction l with
  | nil => rfl
  | cons o l ih =>
    cases o with
    | none => simpa [cellsOf] using ih
    | some p => simpa [cellsOf] using ih

/-- a cast, whichever -/
theorem Ok.bind {st : PairState E} {ks : KPairs E} {R} (h : Ok st ks R) {i : Nat} {p : PairSlot E}
    (hp : st.at_ i = some p) (v : Nat) (T : E.S) (yes : Bool) (hy : yes = true → p.stat.vt = T) :
    Ok (st.bind v i p T yes) ks R := by
  obtain ⟨l1, l2, hl, rfl⟩ := at_split hp
  refine ⟨?_, ?_, ?_, ?_⟩
  · show Books st.heap (cellsOf (st.slots.set l1.length _) ++ R)
    rw [hl, set_mid, cellsOf_mid]
    have := h.books
    rw [hl, cellsOf_mid] at this
    exact this
  · rw [h.keys]
    show _ = (st.slots.set l1.length _).map _
    rw [hl, set_mid]
    simp
  · intro q hq
    change some q ∈ st.slots.set l1.length _ at hq
    rw [hl, set_mid] at hq
    simp only [List.mem_append, List.mem_cons, Option.some.injEq] at hq
    rcases hq with hq | rfl | hq
    · exact h.fits q (by simp [hl, hq])
    · exact h.fits p (by simp [hl])
    · exact h.fits q (by simp [hl, hq])
  · intro w r hr
    change (if w = v then _ else _) = _ at hr
    have hpl : st.slots[l1.length]?.join = some p := hp
    split at hr
    · split at hr
      · cases hr
        rename_i hyes
        refine ⟨by simp [PairState.bind, hl], fun p' hp' => ?_⟩
        change (st.slots.set l1.length _)[l1.length]?.join = some p' at hp'
        rw [List.getElem?_set, if_pos rfl, if_pos (by simp [hl])] at hp'
        cases hp'
        exact ⟨Nat.le_refl _, fun _ => by rw [← hy hyes]⟩
      · cases hr
    · exact refs_set hpl (by rintro p' h; cases h; simp) (h.refs w r hr)

theorem Ok.unbind {st : PairState E} {ks : KPairs E} {R} (h : Ok st ks R) (v : Nat) : Ok (st.unbind v) ks R := by
  refine ⟨h.books, h.keys, h.fits, fun w r hr => ?_⟩
  change (if w = v then _ else _) = _ at hr
  split at hr
  · cases hr
  · exact h.refs w r hr

/-- emptying a place -/
theorem Ok.vacate {st : PairState E} {ks : KPairs E} {R R'} (h : Ok st ks R) {i : Nat} {p : PairSlot E}
    (hp : st.at_ i = some p) (hp' : Heap E.U)
    (hb : ∀ O, Books st.heap ((p.cell, p.stat.ty) :: (O ++ R)) → Books hp' (O ++ R')) :
    Ok { st with heap := hp', slots := st.slots.set i none } (ks.set i none) R' := by
  have hpl : st.slots[i]?.join = some p := hp
  obtain ⟨l1, l2, hl, rfl⟩ := at_split hp
  refine ⟨?_, ?_, ?_, ?_⟩
  · show Books hp' (cellsOf (st.slots.set l1.length none) ++ R')
    rw [hl, set_mid]
    refine hb _ ((hl ▸ h.books).perm (front l1 l2 p R))
  · rw [h.keys]
    show _ = (st.slots.set l1.length _).map _
    rw [hl, set_mid]
    simp
  · intro q hq
    change some q ∈ st.slots.set l1.length _ at hq
    rw [hl, set_mid] at hq
    simp only [List.mem_append, List.mem_cons, reduceCtorEq, false_or] at hq
    exact h.fits q (by rw [hl]; simp; rcases hq with hq | hq <;> simp [hq])
  · intro w r hr
    exact refs_set hpl (by rintro p' h; cases h) (h.refs w r hr)

theorem Ok.step {st st' : PairState E} {ks : KPairs E} {R} (h : Ok st ks R) (o : PairOp E)
    (hst : st.step A o = .ok st') : ∃ lost, Ok st' (ks.step o).1 (lost ++ R) ∧ lost.length = (ks.step o).2 := by
  cases o with
  | new s =>
    cases hst
    rcases h.books.alloc s.ty with ⟨hs, h', x, h1, h2⟩ | ⟨hs, h', h1, h2⟩
    · refine ⟨[], ?_, rfl⟩
      simp only [KPairs.step, if_pos hs, h1, push, List.nil_append]
      refine ⟨?_, by simp [h.keys], ?_, fun w r hr => refs_append (h.refs w r hr)⟩
      · refine h2.perm ?_
        simp only [cellsOf, List.filterMap_append, List.filterMap_cons, List.filterMap_nil, Option.map_some,
          List.append_assoc, List.cons_append, List.nil_append]
        exact List.perm_middle.symm
      · intro q hq
        rcases List.mem_append.1 hq with hq | hq
        · exact h.fits q hq
        · simp only [List.mem_singleton, Option.some.injEq] at hq
          subst hq
          exact hs
    · refine ⟨[], ?_, rfl⟩
      simp only [KPairs.step, if_neg hs, h1, push, List.nil_append]
      exact ⟨h2, h.keys, h.fits, h.refs⟩
  | look i =>
    refine ⟨[], ?_, rfl⟩
    simp only [PairState.step] at hst
    cases hp : st.at_ i with
    | none => rw [hp] at hst; cases hst; exact h
    | some p =>
      rw [hp] at hst
      cases hst
      have hpl : st.slots[i]?.join = some p := hp
      obtain ⟨l1, l2, hl, rfl⟩ := at_split hp
      refine ⟨?_, ?_, ?_, ?_⟩
      · show Books _ (cellsOf (st.slots.set l1.length _) ++ R)
        have hb := h.books.use (x := p.cell) (u := p.stat.ty) (by rw [hl, cellsOf_mid]; simp [cellsOf])
        rw [hl, cellsOf_mid] at hb
        rw [hl, set_mid, cellsOf_mid]
        exact hb
      · show ks = (st.slots.set l1.length _).map _
        rw [h.keys, hl, set_mid]
        simp
      · intro q hq
        change some q ∈ st.slots.set l1.length _ at hq
        rw [hl, set_mid] at hq
        simp only [List.mem_append, List.mem_cons, Option.some.injEq] at hq
        rcases hq with hq | rfl | hq
        · exact h.fits q (by simp [hl, hq])
        · exact h.fits p (by simp [hl])
        · exact h.fits q (by simp [hl, hq])
      · intro w r hr
        exact refs_set hpl (by rintro p' h; cases h; simp) (h.refs w r hr)
  | cast v i T =>
    refine ⟨[], ?_, rfl⟩
    simp only [PairState.step] at hst
    cases hp : st.at_ i with
    | none => rw [hp] at hst; cases hst; exact h.unbind v
    | some p =>
      rw [hp] at hst
      cases hst
      refine h.bind hp v T _ (fun hy => ?_)
      unfold castYes at hy
      split at hy
      · cases hy
      · split at hy
        · rename_i he
          exact A.inj he
        · cases hy
  | castStat v i T x =>
    refine ⟨[], ?_, rfl⟩
    simp only [PairState.step] at hst
    cases hp : st.at_ i with
    | none => rw [hp] at hst; cases hst; exact h.unbind v
    | some p =>
      rw [hp] at hst
      cases hst
      refine h.bind hp v T _ (fun hy => ?_)
      unfold castStatYes at hy
      split at hy
      · cases hy
      · rw [StatInst.eq_iff] at hy
        rw [hy]
        rfl
  | use v =>
    refine ⟨[], ?_, rfl⟩
    simp only [PairState.step] at hst
    cases hr : st.refs v with
    | none => rw [hr] at hst; cases hst; exact h
    | some r =>
      rw [hr] at hst
      simp only at hst
      cases hp : st.at_ r.slot with
      | none => rw [hp] at hst; cases hst
      | some p =>
        rw [hp] at hst
        simp only at hst
        split at hst
        · rename_i ht
          cases hst
          have hty := ((h.refs v r hr).2 p hp).2 ht
          obtain ⟨l1, l2, hl, hi⟩ := at_split hp
          refine ⟨h.books.use ?_, h.keys, h.fits, h.refs⟩
          rw [← hty, hl, cellsOf_mid]
          simp [cellsOf]
        · cases hst
  | intoResult i T =>
    simp only [PairState.step] at hst
    cases hp : st.at_ i with
    | none =>
      rw [hp] at hst
      cases hst
      refine ⟨[], ?_⟩
      have hn := at_none h hp
      simp only [KPairs.step]
      exact ⟨h, rfl⟩
    | some p =>
      rw [hp] at hst
      cases hst
      have hsp : Storable (E.layout p.stat.ty) := by
        obtain ⟨l1, l2, hl, -⟩ := at_split hp
        exact h.fits p (by simp [hl])
      simp only [KPairs.step, at_some h hp]
      by_cases hc : p.stat.vt = T ∧ Storable (E.statLayout T)
      · refine ⟨[], h.vacate hp _ fun O hO => ?_, by simp [hc]⟩
        have : takeOut A st.heap p T = st.heap.move p.cell p.stat.ty := by
          obtain ⟨rfl, hT⟩ := hc
          have h2 : validate (E.layout (E.valTy p.stat.vt)) = .ok () := by
            rw [validate_eq, if_pos (show Storable (E.layout (E.valTy p.stat.vt)) from hsp)]
          simp only [takeOut, validate_eq (E.statLayout p.stat.vt), if_pos hT, if_true, h2]
        rw [this]
        exact hO.move
      · refine ⟨[(p.cell, p.stat.ty)], h.vacate hp _ fun O hO => ?_, by simp [hc]⟩
        have : takeOut A st.heap p T = st.heap := by
          unfold takeOut
          rw [validate_eq]
          by_cases hT : Storable (E.statLayout T)
          · rw [if_pos hT]
            simp only
            rw [if_neg (fun he => hc ⟨A.inj he, hT⟩)]
          · rw [if_neg hT]
        rw [this]
        exact hO.perm List.perm_middle.symm
  | assign i s =>
    simp only [PairState.step] at hst
    cases hp : st.at_ i with
    | none =>
      rw [hp] at hst
      cases hst
      refine ⟨[], ?_⟩
      have hn := at_none h hp
      simp only [KPairs.step]
      exact ⟨h, rfl⟩
    | some p =>
      rw [hp] at hst
      cases hst
      simp only [KPairs.step, at_some h hp]
      rcases h.books.alloc s.ty with ⟨hs, h', x, h1, h2⟩ | ⟨hs, h', h1, h2⟩
      · refine ⟨[(p.cell, p.stat.ty)], ?_, by simp [hs]⟩
        simp only [if_pos hs, h1, replace]
        have hpl : st.slots[i]?.join = some p := hp
        obtain ⟨l1, l2, hl, rfl⟩ := at_split hp
        refine ⟨?_, ?_, ?_, ?_⟩
        · show Books h' (cellsOf (st.slots.set l1.length _) ++ _)
          rw [hl, set_mid]
          rw [hl] at h2
          refine h2.perm (((front l1 l2 p R).cons _).trans ?_)
          refine List.Perm.trans ?_ (front l1 l2 ⟨s, x, p.tag + 1⟩ _).symm
          exact (List.perm_middle.symm).cons _
        · rw [h.keys]
          show _ = (st.slots.set l1.length _).map _
          rw [hl, set_mid]
          simp
        · intro q hq
          change some q ∈ st.slots.set l1.length _ at hq
          rw [hl, set_mid] at hq
          simp only [List.mem_append, List.mem_cons, Option.some.injEq] at hq
          rcases hq with hq | rfl | hq
          · exact h.fits q (by simp [hl, hq])
          · exact hs
          · exact h.fits q (by simp [hl, hq])
        · intro w r hr
          exact refs_set hpl (by rintro p' h; cases h; simp) (h.refs w r hr)
      · refine ⟨[], ?_, by simp [hs]⟩
        simp only [if_neg hs, h1, replace]
        exact ⟨h2, h.keys, h.fits, h.refs⟩
  | move i =>
    simp only [PairState.step] at hst
    cases hp : st.at_ i with
    | none =>
      rw [hp] at hst
      cases hst
      refine ⟨[], ?_⟩
      have hn := at_none h hp
      simp only [KPairs.step]
      exact ⟨h, rfl⟩
    | some p =>
      rw [hp] at hst
      cases hst
      refine ⟨[], ?_, by simp [KPairs.step, at_some h hp]⟩
      simp only [KPairs.step, at_some h hp]
      have hsp : Storable (E.layout p.stat.ty) := by
        obtain ⟨l1, l2, hl, -⟩ := at_split hp
        exact h.fits p (by simp [hl])
      have hv := h.vacate (R' := (p.cell, p.stat.ty) :: R) hp st.heap fun O hO => hO.perm List.perm_middle.symm
      refine ⟨?_, ?_, ?_, fun w r hr => refs_append (hv.refs w r hr)⟩
      · refine hv.books.perm ?_
        simp only [cellsOf, List.filterMap_append, List.filterMap_cons, List.filterMap_nil, Option.map_some,
          List.append_assoc, List.cons_append, List.nil_append]
        exact .refl _
      · rw [hv.keys]
        simp
      · intro q hq
        rcases List.mem_append.1 hq with hq | hq
        · exact hv.fits q hq
        · simp only [List.mem_singleton, Option.some.injEq] at hq
          subst hq
          exact hsp
  | drop i =>
    cases hst
    cases hp : st.at_ i with
    | none =>
      refine ⟨[], ?_⟩
      have hn := at_none h hp
      have hset : st.slots.set i none = st.slots := by
        refine List.ext_getElem? fun j => ?_
        rw [List.getElem?_set]
        split
        · rename_i he
          subst he
          unfold at_ at hp
          cases hi : st.slots[i]? with
          | none =>
            rw [List.getElem?_eq_none_iff] at hi
            rw [if_neg (by omega)]
          | some o =>
            rw [hi] at hp
            change o = none at hp
            subst hp
            rw [if_pos (List.getElem?_eq_some_iff.1 hi).1]
        · rfl
      simp only [KPairs.step, hset]
      exact ⟨h, rfl⟩
    | some p =>
      simp only [KPairs.step, at_some h hp]
      exact ⟨[(p.cell, p.stat.ty)], h.vacate hp st.heap fun O hO => hO.perm List.perm_middle.symm, rfl⟩

theorem Ok.runFrom (os : List (PairOp E)) {st st' : PairState E} {ks : KPairs E} {R} (h : Ok st ks R)
    (hst : st.runFrom A os = .ok st') : ∃ ks' R', Ok st' ks' R' ∧
      (cellsOf st'.slots ++ R').length = R.length + ks.leaks os := by
  induction os generalizing st ks R with
  | nil =>
    cases hst
    refine ⟨ks, R, h, ?_⟩
    rw [KPairs.leaks, h.keys, countP_cells, List.length_append, Nat.add_comm]
  | cons o os ih =>
    rw [PairState.runFrom, Res.bind_eq_ok] at hst
    obtain ⟨st1, h1, h2⟩ := hst
    obtain ⟨lost, h3, h4⟩ := h.step o h1
    obtain ⟨ks', R', h5, h6⟩ := ih h3 h2
    refine ⟨ks', R', h5, ?_⟩
    rw [h6, KPairs.leaks, List.length_append]
    omega

theorem Ok.init : Ok (PairState.init : PairState E) [] [] :=
  ⟨Books.new, rfl, by simp [PairState.init], by simp [PairState.init]⟩

/-- what a scoped program may rely on -/
def Tied (st : PairState E) (b : Nat → Option Nat) : Prop :=
  ∀ v i, b v = some i → st.refs v = none ∨
    ∃ r p, st.refs v = some r ∧ r.slot = i ∧ st.at_ i = some p ∧ p.tag = r.tag

/-- a step on pair `i` that leaves the other places and the references alone -/
theorem Tied.other {st st' : PairState E} {b : Nat → Option Nat} (h : Tied st b) (i : Nat)
    (hr : st'.refs = st.refs) (ho : ∀ j, j ≠ i → ∀ p, st.at_ j = some p → st'.at_ j = some p) :
    Tied st' (fun w => if b w = some i then none else b w) := by
  intro v j hj
  dsimp only at hj
  split at hj
  · cases hj
  · rename_i hne
    rw [hr]
    rcases h v j hj with h | ⟨r, p, h1, h2, h3, h4⟩
    · exact .inl h
    · refine .inr ⟨r, p, h1, h2, ho j (fun he => hne (he ▸ hj)) p h3, h4⟩

theorem at_set_ne (st : PairState E) {i j : Nat} (o : Option (PairSlot E)) (h : j ≠ i) :
    (st.slots.set i o)[j]?.join = st.at_ j := by
  rw [List.getElem?_set, if_neg (fun he => h he.symm)]
  rfl

theorem Tied.bind {st : PairState E} {b : Nat → Option Nat} (h : Tied st b) {v i : Nat} {p : PairSlot E}
    (hp : st.at_ i = some p) (T : E.S) (yes : Bool) :
    Tied (st.bind v i p T yes) (fun w => if w = v then some i else if b w = some i then none else b w) := by
  intro w j hj
  dsimp only at hj
  have hlen : i < st.slots.length := by
    obtain ⟨l1, l2, hl, rfl⟩ := at_split hp
    simp [hl]
  split at hj
  · rename_i hw
    cases hj
    cases yes with
    | false => exact .inl (by simp [PairState.bind, hw])
    | true =>
      refine .inr ⟨⟨i, p.tag + 1, E.valTy T⟩, { p with tag := p.tag + 1 }, by simp [PairState.bind, hw], rfl, ?_, rfl⟩
      show (st.slots.set i _)[i]?.join = _
      rw [List.getElem?_set, if_pos rfl, if_pos hlen]
      rfl
  · rename_i hw
    split at hj
    · cases hj
    · rename_i hne
      have hrefs : (st.bind v i p T yes).refs w = st.refs w := by simp [PairState.bind, hw]
      rw [hrefs]
      rcases h w j hj with h | ⟨r, q, h1, h2, h3, h4⟩
      · exact .inl h
      · refine .inr ⟨r, q, h1, h2, ?_, h4⟩
        rw [← h3]
        exact at_set_ne st _ (fun he => hne (he ▸ hj))

theorem Tied.unbind {st : PairState E} {b : Nat → Option Nat} (h : Tied st b) (v i : Nat) :
    Tied (st.unbind v) (fun w => if w = v then some i else if b w = some i then none else b w) := by
  intro w j hj
  dsimp only at hj
  split at hj
  · rename_i hw
    exact .inl (by simp [PairState.unbind, hw])
  · rename_i hw
    split at hj
    · cases hj
    · have hrefs : (st.unbind v).refs w = st.refs w := by simp [PairState.unbind, hw]
      rw [hrefs]
      exact h w j hj

theorem Tied.run (os : List (PairOp E)) {st : PairState E} {b : Nat → Option Nat} (h : Tied st b)
    (hs : PairOp.Scoped b os) : ∃ st', st.runFrom A os = .ok st' := by
  induction os generalizing st b with
  | nil => exact ⟨st, rfl⟩
  | cons o os ih =>
    suffices hh : ∃ st1 b', st.step A o = .ok st1 ∧ Tied st1 b' ∧ PairOp.Scoped b' os by
      obtain ⟨st1, b', h1, h2, h3⟩ := hh
      obtain ⟨st', h4⟩ := ih h2 h3
      exact ⟨st', by rw [PairState.runFrom, h1, Res.bind_ok, h4]⟩
    cases o with
    | new s =>
      refine ⟨_, b, rfl, ?_, hs⟩
      intro v i hv
      have hr : (st.push s (st.heap.alloc s.ty)).refs = st.refs := by
        rcases st.heap.alloc s.ty with ⟨h', o⟩
        cases o <;> rfl
      rw [hr]
      rcases h v i hv with h | ⟨r, p, h1, h2, h3, h4⟩
      · exact .inl h
      · refine .inr ⟨r, p, h1, h2, ?_, h4⟩
        obtain ⟨l1, l2, hl, rfl⟩ := at_split h3
        rcases st.heap.alloc s.ty with ⟨h', o⟩
        cases o with
        | none => exact h3
        | some x =>
          show (st.slots ++ [_])[l1.length]?.join = _
          rw [List.getElem?_append_left (by simp [hl])]
          exact h3
    | use v =>
      obtain ⟨h1, h2⟩ := hs
      obtain ⟨i, hi⟩ := Option.isSome_iff_exists.1 h1
      rcases h v i hi with hn | ⟨r, p, e1, e2, e3, e4⟩
      · exact ⟨st, b, by simp [PairState.step, hn], h, h2⟩
      · subst e2
        exact ⟨{ st with heap := st.heap.use p.cell r.ty }, b, by simp [PairState.step, e1, e3, e4], h, h2⟩
    | cast v i T =>
      cases hp : st.at_ i with
      | none => exact ⟨_, _, by simp only [PairState.step, hp], h.unbind v i, hs⟩
      | some p => exact ⟨st.bind v i p T (castYes A p T), _, by simp only [PairState.step, hp], h.bind hp T _, hs⟩
    | castStat v i T x =>
      cases hp : st.at_ i with
      | none => exact ⟨_, _, by simp only [PairState.step, hp], h.unbind v i, hs⟩
      | some p => exact ⟨st.bind v i p T (castStatYes A p x), _, by simp only [PairState.step, hp], h.bind hp T _, hs⟩
    | look i =>
      cases hp : st.at_ i with
      | none => exact ⟨_, _, by simp only [PairState.step, hp], h.other i rfl (fun j _ p hp => hp), hs⟩
      | some p =>
        refine ⟨{ st with heap := st.heap.use p.cell p.stat.ty, slots := st.slots.set i (some { p with tag := p.tag + 1 }) }, _,
          by simp only [PairState.step, hp], h.other i rfl (fun j hj q hq => ?_), hs⟩
        rw [← hq]
        exact at_set_ne st _ hj
    | intoResult i T =>
      cases hp : st.at_ i with
      | none => exact ⟨_, _, by simp only [PairState.step, hp], h.other i rfl (fun j _ p hp => hp), hs⟩
      | some p =>
        refine ⟨{ st with heap := takeOut A st.heap p T, slots := st.slots.set i none }, _,
          by simp only [PairState.step, hp], h.other i rfl (fun j hj q hq => ?_), hs⟩
        rw [← hq]
        exact at_set_ne st _ hj
    | assign i s =>
      cases hp : st.at_ i with
      | none => exact ⟨_, _, by simp only [PairState.step, hp], h.other i rfl (fun j _ p hp => hp), hs⟩
      | some p =>
        refine ⟨st.replace i p s (st.heap.alloc s.ty), _,
          by simp only [PairState.step, hp], h.other i ?_ (fun j hj q hq => ?_), hs⟩
        · rcases st.heap.alloc s.ty with ⟨h', o⟩
          cases o <;> rfl
        · rw [← hq]
          rcases st.heap.alloc s.ty with ⟨h', o⟩
          cases o with
          | none => rfl
          | some x => exact at_set_ne st _ hj
    | move i =>
      cases hp : st.at_ i with
      | none => exact ⟨_, _, by simp only [PairState.step, hp], h.other i rfl (fun j _ p hp => hp), hs⟩
      | some p =>
        refine ⟨{ st with slots := st.slots.set i none ++ [some { p with tag := 0 }] }, _,
          by simp only [PairState.step, hp], h.other i rfl (fun j hj q hq => ?_), hs⟩
        obtain ⟨l1, l2, hl, rfl⟩ := at_split hq
        show (st.slots.set i none ++ [_])[l1.length]?.join = _
        rw [List.getElem?_append_left (by simp [hl]), ← hq]
        exact at_set_ne st _ hj
    | drop i =>
      refine ⟨_, _, rfl, h.other i rfl (fun j hj q hq => ?_), hs⟩
      rw [← hq]
      exact at_set_ne st _ hj

end PairState

/-- **C82**, partial: a program that uses each reference only until the next use of its pair, as it would have to if
the signatures tied the lifetimes, has no undefined behaviour: every reference is used while its pair is in place and
untouched, at the type of the value.  Missing: other programs, which the compiler accepts too. -/
theorem C82_scoped_partial (os : List (PairOp E)) (h : PairOp.Scoped (fun _ => none) os) :
    ∃ st, PairState.run A os = .ok st ∧ Sound st.heap.log := by
  obtain ⟨st, hst⟩ := PairState.Tied.run (A := A) os (st := PairState.init) (by intro v i h; cases h) h
  obtain ⟨ks, R, ho, -⟩ := PairState.Ok.init.runFrom os hst
  exact ⟨st, hst, ho.books.sound⟩

/-- **C82 is refuted** for safe programs: a reference used after its pair was turned into the value, after the pair
went out of scope or was moved, after a pair of another type took its place, and after a second reference was
obtained. -/
theorem C82_refuted :
    PairState.run demoAddr [.new (demoInt 0), .cast 0 0 true, .intoResult 0 true, .use 0] = .error .ub ∧
    PairState.run demoAddr [.new (demoInt 0), .cast 0 0 true, .drop 0, .use 0] = .error .ub ∧
    PairState.run demoAddr [.new (demoInt 0), .cast 0 0 true, .move 0, .use 0] = .error .ub ∧
    PairState.run demoAddr [.new (demoInt 0), .castStat 0 0 true (0 : Nat), .assign 0 (demoFlag 1), .use 0] =
      .error .ub ∧
    PairState.run demoAddr [.new (demoInt 0), .cast 0 0 true, .cast 1 0 true, .use 0] = .error .ub :=
  ⟨rfl, rfl, rfl, rfl, rfl⟩

/-- **C83** In any program that does not run into C82, no value of a pair is dropped, or handed out twice, or used
after it was handed out, or at another type. -/
theorem C83_sound (os : List (PairOp E)) (st : PairState E) (h : PairState.run A os = .ok st) :
    Sound st.heap.log := by
  obtain ⟨ks, R, ho, -⟩ := PairState.Ok.init.runFrom os h
  exact ho.books.sound

/-- **C83, exactly**: a program leaks one value for each pair that goes out of scope, is assigned to, or is asked for
a value of the wrong stat type.  Only `into_result` at the right type releases a value. -/
theorem C83_exact (os : List (PairOp E)) (st : PairState E) (h : PairState.run A os = .ok st) :
    (unreleased st.heap.log).length = KPairs.leaks [] os := by
  obtain ⟨ks, R, ho, hl⟩ := PairState.Ok.init.runFrom os h
  have := ho.books.all.length_eq
  rw [List.length_map] at this
  rw [this, hl]
  simp

/-- C83: a program that leaks nothing, one that leaks two values, and both are scoped -/
example :
    (∃ st, PairState.run demoAddr [.new (demoInt 0), .cast 0 0 true, .use 0, .use 0, .intoResult 0 true] = .ok st ∧
      st.heap.log.length = 4) ∧
    PairOp.Scoped (fun _ => none) (E := demo) [.new (demoInt 0), .cast 0 0 true, .use 0, .use 0, .intoResult 0 true] ∧
    KPairs.leaks [] (E := demo) [.new (demoInt 0), .cast 0 0 true, .use 0, .use 0, .intoResult 0 true] = 0 ∧
    KPairs.leaks [] (E := demo) [.new (demoInt 0), .assign 0 (demoFlag 1), .intoResult 0 true] = 2 ∧
    (∃ st, PairState.run demoAddr [.new (demoInt 0), .assign 0 (demoFlag 1), .intoResult 0 true] = .ok st) :=
  ⟨⟨_, rfl, rfl⟩, by simp [PairOp.Scoped], by decide, by decide, ⟨_, rfl⟩⟩

end BSQ
