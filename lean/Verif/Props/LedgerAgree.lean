import Verif.Props.Ledger
import Verif.Props.Multimap
/-!
# C81: the values a map owns are those a lookup finds
-/
namespace BSQ
set_option linter.unusedSectionVars false
variable {E : Env} {Q : Type} [BitFlags Q] [FlagSet Q] [Ord Q] [Std.TransOrd Q] [Std.LawfulEqOrd Q] [DecidableEq Q]
  {A : Addr E}

namespace Vec
variable {B : Type}

/-- forget the buffers -/
def era (m : Vec E Q B) : Vec E Q Unit := m.map fun e => ⟨e.stat, e.qual, ()⟩

theorem binarySearchBy_map {α β : Type} (g : α → β) (l : List α) (f : β → Ordering) :
    binarySearchBy (l.map g) f = binarySearchBy l (fun x => f (g x)) := by
  have : (fun i : Nat => ((l.map g)[i]?).elim .gt f) = fun i => (l[i]?).elim .gt fun x => f (g x) := by
    funext i
    rw [List.getElem?_map]
    cases l[i]? <;> rfl
  have h2 : ∀ i : Nat, ((l.map g)[i]?).elim .gt f = (l[i]?).elim .gt fun x => f (g x) := fun i => congrFun this i
  simp only [binarySearchBy, List.length_map, this, h2]

theorem search_era (m : Vec E Q B) (q : Qualifier Q) (s : StatInst E) : m.era.search A q s = m.search A q s := by
  unfold Vec.search era
  rw [binarySearchBy_map]
  rfl

theorem range_era (m : Vec E Q B) (s : StatInst E) : m.era.range A s = m.range A s := by
  unfold Vec.range era partitionPoint
  rw [binarySearchBy_map, binarySearchBy_map]

theorem put_era (m : Vec E Q B) (q : Qualifier Q) (s : StatInst E) (b : B) :
    (m.put A q s b).1.era = (m.era.put A q s ()).1 := by
  unfold Vec.put
  rw [search_era]
  cases m.search A q s with
  | ok i =>
    simp only [era]
    refine List.ext_getElem (by simp) fun j h1 h2 => ?_
    simp only [List.getElem_map, List.getElem_modify]
    split <;> rfl
  | error i =>
    simp only [era]
    rw [List.map_insertIdx]

theorem update_era (m : Vec E Q B) (q : Qualifier Q) (s : StatInst E) (b : B) :
    (m.update A q s b).era = m.era := by
  unfold Vec.update
  cases m.search A q s with
  | ok i =>
    simp only [era]
    refine List.ext_getElem (by simp) fun j h1 h2 => ?_
    simp only [List.getElem_map, List.getElem_modify]
    split <;> rfl
  | error i => rfl

theorem pull_era (m : Vec E Q B) (q : Qualifier Q) (s : StatInst E) :
    (m.pull A q s).1.era = (m.era.pull A q s).1 := by
  unfold Vec.pull
  rw [search_era]
  cases m.search A q s with
  | ok i => simp only [era, List.eraseIdx_map]
  | error i => rfl

theorem sorted_era (m : Vec E Q B) : (Vec.sorted A m).era = Vec.sorted A m.era :=
  List.map_mergeSort fun _ _ _ _ => rfl

theorem era_eq_iff {B' : Type} (m : Vec E Q B) (l : Vec E Q B') :
    m.era = l.era ↔ m.map Entry.key = l.map Entry.key := by
  have h : ∀ {B : Type} (m : Vec E Q B), m.era = (m.map Entry.key).map fun k => ⟨k.stat, k.qual, ()⟩ := by
    intro B m
    rw [List.map_map]
    rfl
  have h' : ∀ {B : Type} (m : Vec E Q B), m.map Entry.key = m.era.map Entry.key := by
    intro B m
    unfold era
    rw [List.map_map]
    rfl
  exact ⟨fun he => by rw [h', h' l, he], fun he => by rw [h, h l, he]⟩

end Vec

/-- the calls of the ownership model that stand for a call that returns -/
def MultiOp.own : MultiOp E Q → List (LOp E Q)
  | .one (.insert q s _) => [.insert 0 q s]
  | .one (.insertBase q s _) => [.insert 0 q s]
  | .one (.modify q s _) => [.modify 0 q s false]
  | .one (.modifyWith q s _) => [.modify 0 q s false]
  | .one (.getMut q s _) => [.get 0 q s]
  | .one (.iterMut s _) => [.iter 0 s]
  | .one (.remove q s) => [.remove 0 q s]
  | .one (.removeAll s) => [.removeAll 0 s]
  | .one .clear => [.clear 0]
  | .extend T items => [.extend 0 T (items.map fun t => (t.1, t.2.1))]
  | .collect T items => [.dropMap 0, .fromIter T (items.map fun t => (t.1, t.2.1)) false]

namespace Agree
open Vec

theorem from_ok {u : E.U} {x : E.El u} {b : Buf E} (h : Buf.from_ u x = .ok b) : Storable (E.layout u) := by
  by_contra hn
  rw [Buf.from_eq, if_neg hn] at h
  cases h

theorem alloc_ok {u : E.U} (hs : Storable (E.layout u)) (h : Heap E.U) :
    h.alloc u = ((h.create u).1, some (h.create u).2) := by
  unfold Heap.alloc Heap.fill
  rw [validate_eq, if_pos hs]

theorem find_isSome {B B' : Type} {m : Vec E Q B} {l : Vec E Q B'} (he : m.era = l.era) (q : Qualifier Q)
    (s : StatInst E) : (m.find A q s).isSome = (l.find A q s).isSome := by
  unfold Vec.find
  rw [← search_era m, ← search_era l, he]
  cases l.era.search A q s with
  | error i => rfl
  | ok i =>
    simp only [Option.isSome_map]
    have hl : m.length = l.length := by
      have := congrArg List.length he
      simpa [era] using this
    rw [Bool.eq_iff_iff, Option.isSome_iff_ne_none, Option.isSome_iff_ne_none, Ne, Ne, List.getElem?_eq_none_iff,
      List.getElem?_eq_none_iff, hl]

theorem insert {m : StatMap E Q} {l : LMap E Q} (he : era m = era l) {q : Qualifier Q} {s : StatInst E} {v : s.Val}
    {m' : StatMap E Q} (h : StatMap.insert A m q s v = .ok m') (hp : Heap E.U) :
    era m' = era (LMap.insert A hp l q s).2 := by
  unfold StatMap.insert at h
  rw [Res.bind_eq_ok] at h
  obtain ⟨b, hb, h⟩ := h
  cases h
  unfold LMap.insert
  rw [alloc_ok (from_ok hb), LMap.store]
  rw [put_era, put_era, he]

theorem modifyCase {m : StatMap E Q} {l : LMap E Q} (he : era m = era l) {q : Qualifier Q} {s : StatInst E}
    {m' : StatMap E Q} {f : s.Val → Res s.Val} {g : Res s.Val}
    (h : (do
      let cur ← StatMap.get A m q s
      match cur with
      | some v => do
        let v' ← f v
        Except.ok (m.update A q s (.val s.ty v'))
      | none => do
        let v ← g
        let b ← Buf.from_ s.ty v
        Except.ok (m.put A q s b).1) = (Except.ok m' : Res (StatMap E Q))) (hp : Heap E.U) :
    era m' = era (LMap.modify A hp l q s false).2 := by
  rw [Res.bind_eq_ok] at h
  obtain ⟨cur, hc, h⟩ := h
  have hf := find_isSome (A := A) he q s
  unfold StatMap.get at hc
  unfold LMap.modify
  cases hm : m.find A q s with
  | none =>
    rw [hm] at hc hf
    cases hl : l.find A q s with
    | some x => rw [hl] at hf; cases hf
    | none =>
      cases hc
      simp only [Res.bind_eq_ok] at h
      obtain ⟨v, _, b, hb, h⟩ := h
      cases h
      simp only [Bool.false_eq_true, if_false]
      rw [alloc_ok (from_ok hb), LMap.store, put_era, put_era, he]
  | some b =>
    rw [hm] at hc hf
    cases hl : l.find A q s with
    | none => rw [hl] at hf; cases hf
    | some x =>
      simp only [StatMap.readAs, Res.bind_eq_ok] at hc
      obtain ⟨v, _, hc⟩ := hc
      cases hc
      simp only [Res.bind_eq_ok] at h
      obtain ⟨v', _, h⟩ := h
      cases h
      rw [update_era, he]

theorem entries {T : E.S} (items : List (Qualifier Q × Nat × E.El (E.valTy T))) {es : List (Entry E Q (Buf E))}
    (h : StatMap.entries T items = .ok es) (hp : Heap E.U) :
    ∃ hp' ls, LMap.entries T false hp (items.map fun t => (t.1, t.2.1)) = (hp', some ls) ∧ era es = era ls := by
  induction items generalizing es hp with
  | nil =>
    cases h
    exact ⟨hp, [], rfl, rfl⟩
  | cons t items ih =>
    obtain ⟨q, i, v⟩ := t
    simp only [StatMap.entries, Res.bind_eq_ok] at h
    obtain ⟨b, hb, rest, hr, h⟩ := h
    cases h
    obtain ⟨hp', ls, h1, h2⟩ := ih hr (hp.create (E.valTy T)).1
    refine ⟨hp', ⟨⟨T, i⟩, q, (hp.create (E.valTy T)).2⟩ :: ls, ?_, ?_⟩
    · simp only [List.map_cons, LMap.entries, alloc_ok (from_ok hb), h1]
    · simp only [era, List.map_cons] at h2 ⊢
      rw [h2]

theorem mapM_era (f : Buf E → Res (Buf E)) (l : StatMap E Q) {r : StatMap E Q}
    (h : l.mapM (fun e => do
      let b ← f e.buf
      Except.ok { e with buf := b }) = (Except.ok r : Res _)) : era r = era l := by
  induction l generalizing r with
  | nil =>
    cases h
    rfl
  | cons e l ih =>
    rw [List.mapM_cons, Res.bind_eq_ok] at h
    obtain ⟨e', he, h⟩ := h
    rw [Res.bind_eq_ok] at h
    obtain ⟨r', hr, h⟩ := h
    rw [Res.bind_eq_ok] at he
    obtain ⟨b, _, he⟩ := he
    cases he
    cases h
    have := ih hr
    simp only [era, List.map_cons] at this ⊢
    rw [this]

theorem step {m m' : StatMap E Q} {o : MultiOp E Q} (h : StatMap.multiStep A m o = .ok m') {st : LState E Q}
    {l : LMap E Q} (hl : st.maps = [l]) (he : era m = era l) :
    ∃ l', (LState.runFrom A st o.own).maps = [l'] ∧ era m' = era l' := by
  have hon : ∀ (f : Heap E.U → LMap E Q → Heap E.U × LMap E Q), (st.on 0 f).maps = [(f st.heap l).2] := by
    intro f
    simp [LState.on, hl]
  cases o with
  | one o =>
    cases o with
    | insert q s v => exact ⟨_, hon (fun h m => LMap.insert A h m q s), insert he h _⟩
    | insertBase q s v => exact ⟨_, hon (fun h m => LMap.insert A h m q s), insert (v := s.sv.fromBase v) he h _⟩
    | modify q s o => exact ⟨_, hon (fun h m => LMap.modify A h m q s false), modifyCase (f := o.writeTo) (g := o.intoStat) he h _⟩
    | modifyWith q s f => exact ⟨_, hon (fun h m => LMap.modify A h m q s false), modifyCase (f := f) (g := f s.sv.default) he h _⟩
    | getMut q s f =>
      refine ⟨_, hon (fun h m => LMap.get A h m q s), ?_⟩
      simp only [StatMap.multiStep, StatMap.step, StatMap.getMut, Res.bind_eq_ok] at h
      obtain ⟨cur, _, h⟩ := h
      have h2 : (LMap.get A st.heap l q s).2 = l := by unfold LMap.get; split <;> rfl
      rw [h2]
      cases cur with
      | none => cases h; exact he
      | some v =>
        simp only [Res.bind_eq_ok] at h
        obtain ⟨v', _, h⟩ := h
        cases h
        rw [update_era, he]
    | iterMut s f =>
      refine ⟨_, hon (fun h m => LMap.iter A h m s), ?_⟩
      have h2 : (LMap.iter A st.heap l s).2 = l := by unfold LMap.iter; split <;> rfl
      rw [h2, ← he]
      simp only [StatMap.multiStep, StatMap.step, StatMap.iterMut, Vec.sliceMut] at h
      split at h
      · cases h
      · rename_i hlt
        rw [Res.bind_eq_ok] at h
        obtain ⟨mid, hm, h⟩ := h
        cases h
        have := mapM_era (fun b => do
          let v ← b.read s.ty
          let v' ← (Except.ok (f v) : Res s.Val)
          Except.ok (Buf.val s.ty v')) _ hm
        generalize (Vec.range A m s).1 = a at *
        generalize (Vec.range A m s).2 = c at *
        have h1 : m = m.take a ++ (m.take c).drop a ++ m.drop c := by
          rw [show m.take a = (m.take c).take a by rw [List.take_take]; congr 1; omega, List.take_append_drop,
            List.take_append_drop]
        conv_rhs => rw [h1]
        simp only [era, List.map_append] at this ⊢
        rw [this]
    | remove q s =>
      refine ⟨_, hon (fun h m => LMap.remove A h m q s), ?_⟩
      simp only [StatMap.multiStep, StatMap.step, StatMap.remove, Res.bind_eq_ok] at h
      obtain ⟨r, ⟨v, _, hr⟩, h⟩ := h
      cases hr
      cases h
      have h2 : (LMap.remove A st.heap l q s).2 = (l.pull A q s).1 := by
        unfold LMap.remove
        split <;> simp_all
      rw [h2, pull_era, pull_era, he]
    | removeAll s =>
      refine ⟨_, hon (fun h m => LMap.removeAll A h m s), ?_⟩
      simp only [StatMap.multiStep, StatMap.step, StatMap.removeAll, Res.bind_eq_ok] at h
      obtain ⟨r, hr, _, _, h⟩ := h
      cases h
      have hrg : Vec.range A m s = Vec.range A l s := by rw [← range_era m, ← range_era l, he]
      have hlen : m.length = l.length := by
        have := congrArg List.length he
        simpa [era] using this
      simp only [LMap.removeAll, Vec.removeAll] at hr ⊢
      rw [hrg, hlen] at hr
      split at hr
      · cases hr
      · rename_i hlt
        cases hr
        rw [if_neg hlt]
        simp only [era, List.map_append, List.map_take, List.map_drop] at he ⊢
        rw [he]
    | clear =>
      refine ⟨_, hon (fun h m => LMap.clear h m), ?_⟩
      simp only [StatMap.multiStep, StatMap.step, StatMap.clear, Res.bind_eq_ok] at h
      obtain ⟨_, _, h⟩ := h
      cases h
      rfl
  | extend T items =>
    refine ⟨_, hon (fun h m => LMap.extend A h m T
      (items.map fun t : Qualifier Q × Nat × E.El (E.valTy T) => (t.1, t.2.1))), ?_⟩
    simp only [StatMap.multiStep, StatMap.extend, Res.bind_eq_ok] at h
    obtain ⟨es, hes, h⟩ := h
    cases h
    obtain ⟨hp', ls, h1, h2⟩ := entries items hes st.heap
    simp only [LMap.extend, h1]
    rw [sorted_era, sorted_era]
    simp only [era, List.map_append] at he h2 ⊢
    rw [he, h2]
  | collect T items =>
    simp only [StatMap.multiStep, StatMap.fromIter, Res.bind_eq_ok] at h
    obtain ⟨es, hes, h⟩ := h
    cases h
    obtain ⟨hp', ls, h1, h2⟩ := entries items hes (LMap.dropAll st.heap l)
    refine ⟨Vec.sorted A ls, ?_, by rw [sorted_era, sorted_era, h2]⟩
    simp [MultiOp.own, LState.runFrom, LState.step, hl, LMap.fromIter, h1, LState.push]

theorem run {m m' : StatMap E Q} (os : List (MultiOp E Q)) (h : StatMap.multiRun A m os = .ok m')
    {st : LState E Q} {l : LMap E Q} (hl : st.maps = [l]) (he : era m = era l) :
    ∃ l', (LState.runFrom A st (os.flatMap MultiOp.own)).maps = [l'] ∧ era m' = era l' := by
  induction os generalizing m st l with
  | nil =>
    cases h
    exact ⟨l, hl, he⟩
  | cons o os ih =>
    simp only [StatMap.multiRun, Res.bind_eq_ok] at h
    obtain ⟨m1, h1, h2⟩ := h
    obtain ⟨l1, h3, h4⟩ := step h1 hl he
    rw [List.flatMap_cons, LState.runFrom, List.foldl_append]
    exact ih h2 h3 h4

end Agree

/-- the program that makes a map and does what a history says -/
def ownProgram (h : List (MultiOp E Q)) : List (LOp E Q) := .new :: h.flatMap MultiOp.own

/-- **C81** After any history of calls that return, the map owns one value for each entry that the value model has,
under the same keys in the same order. -/
theorem C81_same_entries (h : List (MultiOp E Q)) (m : StatMap E Q) (hm : StatMap.multiRun A [] h = .ok m) :
    ∃ l, (LState.run A (ownProgram h)).maps = [l] ∧
      l.map (fun e => (e.stat, e.qual)) = m.map (fun e => (e.stat, e.qual)) := by
  obtain ⟨l, h1, h2⟩ := Agree.run (A := A) h hm (st := ⟨.new, [[]]⟩) rfl rfl
  refine ⟨l, h1, ?_⟩
  have := congrArg (List.map fun e : Entry E Q Unit => (e.stat, e.qual)) h2.symm
  simpa only [Vec.era, List.map_map, Function.comp_def] using this

/-- **C81** So the values alive are as many as the entries, plus the leaked ones. -/
theorem C81_alive (h : List (MultiOp E Q)) (m : StatMap E Q) (hm : StatMap.multiRun A [] h = .ok m) :
    (unreleased (LState.run A (ownProgram h)).heap.log).length = m.length + KState.leaks [] (ownProgram h) := by
  obtain ⟨l, h1, h2⟩ := C81_same_entries h m hm
  rw [C57_alive, h1]
  have := congrArg List.length h2
  simp only [List.length_map] at this
  simp [this]

/-- C81: a history with repeated keys, a removal and a modification; two values are alive and one was leaked by the
second insertion -/
example :
    let h : List (MultiOp demo (BitVec 8)) := [.one (.insert ⟨0, 0⟩ (demoFlag 1) ⟨0, 5⟩),
      .one (.insert ⟨0, 0⟩ (demoFlag 1) ⟨0, 6⟩), .one (.modify ⟨0, 0⟩ (demoInt 0) (.add (3 : Int))),
      .one (.insert ⟨1, 0⟩ (demoInt 0) ⟨6, 0, 9, 1⟩), .one (.remove ⟨1, 0⟩ (demoInt 0))]
    (∃ m, StatMap.multiRun demoAddr [] h = .ok m ∧ m.length = 2) ∧
    (unreleased (LState.run demoAddr (ownProgram h)).heap.log).length = 3 := by
  exact ⟨⟨_, rfl, rfl⟩, by decide +kernel⟩

end BSQ
