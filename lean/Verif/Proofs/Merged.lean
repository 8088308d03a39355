import Verif.Spec.Merged
import Verif.Proofs.SharedMap
/-! Helper lemmas: calls on a map whose stat types share addresses are calls on a map of the merged program. -/
set_option linter.unusedSectionVars false
namespace BSQ
variable {P : Env} {N : StatTypes} {place : N.S → P.S} {Q : Type}

namespace Buf

theorem from_merged (u : P.U) (x : P.El u) :
    (Buf.from_ (E := P.spread N place) u x).map Buf.merged = Buf.from_ (E := P) u x := by
  unfold Buf.from_
  show Except.map _ (validate (P.layout u) >>= _) = validate (P.layout u) >>= _
  cases validate (P.layout u) <;> rfl

theorem get_merged (u : P.U) (b : Buf (P.spread N place)) : b.merged.get u = Buf.get (E := P.spread N place) u b := by
  cases b <;> rfl

theorem read_merged (u : P.U) (b : Buf (P.spread N place)) : b.merged.read u = Buf.read (E := P.spread N place) u b := by
  unfold Buf.read
  simp only [get_merged]

end Buf

theorem vtDrop_merged (T : N.S) (b : Buf (P.spread N place)) :
    vtDrop (place T) b.merged = vtDrop (E := P.spread N place) T b := by
  unfold vtDrop
  rw [Buf.read_merged]

theorem vtJoin_merged (T : N.S) (a b : Buf (P.spread N place)) :
    (vtJoin (E := P.spread N place) T a b).map Buf.merged = vtJoin (place T) a.merged b.merged := by
  unfold vtJoin
  rw [Buf.get_merged, Buf.get_merged]
  show Except.map _ (validate (P.layout (P.valTy (place T))) >>= _) = validate (P.layout (P.valTy (place T))) >>= _
  cases validate (P.layout (P.valTy (place T))) with
  | error e => rfl
  | ok _ =>
    simp only [Res.bind_ok]
    cases Buf.get (E := P.spread N place) (P.valTy (place T)) a with
    | error e => rfl
    | ok x =>
      simp only [Res.bind_ok]
      cases Buf.get (E := P.spread N place) (P.valTy (place T)) b with
      | error e => rfl
      | ok y =>
        simp only [Res.bind_ok]
        cases (P.sv (P.valTy (place T))).join x y <;> rfl

theorem vtClone_merged (T : N.S) (b : Buf (P.spread N place)) :
    (vtClone (E := P.spread N place) T b).map Buf.merged = vtClone (place T) b.merged := by
  unfold vtClone
  rw [Buf.read_merged]
  cases Buf.read (E := P.spread N place) (P.valTy (place T)) b with
  | error e => rfl
  | ok x => exact Buf.from_merged (N := N) (place := place) (P.valTy (place T)) x

namespace StatMap
variable (m : StatMap (P.spread N place) Q)

theorem dropAll_merged (l : List (Entry (P.spread N place) Q (Buf (P.spread N place)))) :
    StatMap.dropAll (l.map Entry.merged) = StatMap.dropAll l := by
  induction l with
  | nil => rfl
  | cons e l ih =>
    simp only [List.map_cons, StatMap.dropAll, ih]
    rw [← vtDrop_merged]
    rfl

theorem clone_merged : (StatMap.clone m).map StatMap.merged = StatMap.clone m.merged := by
  induction m with
  | nil => rfl
  | cons e l ih =>
    have hc := vtClone_merged e.stat.vt e.buf
    show Except.map _ (vtClone e.stat.vt e.buf >>= fun b => StatMap.clone l >>= _) =
      vtClone (place e.stat.vt) e.buf.merged >>= fun b => StatMap.clone (StatMap.merged l) >>= _
    rw [← hc, ← ih]
    cases vtClone (E := P.spread N place) e.stat.vt e.buf with
    | error e => rfl
    | ok b =>
      cases StatMap.clone l <;> rfl

variable [Ord Q] (A : Addr P)

/-- the address of a stat type is that of the one whose place it takes -/
abbrev mloc (A : Addr P) (place : N.S → P.S) : (P.spread N place).S → Nat := fun v => A.at_ (place v)

theorem search_merged (q : Qualifier Q) (s : StatInst (P.spread N place)) :
    Vec.search A m.merged q s.merged = Shared.search (mloc A place) m q s := by
  unfold Vec.search StatMap.merged
  rw [binarySearchBy_map]
  rfl

theorem modify_merged (i : Nat) (b : Buf (P.spread N place)) :
    (List.modify m i (fun e => { e with buf := b })).map Entry.merged =
      List.modify (StatMap.merged m) i (fun e => { e with buf := b.merged }) := by
  apply List.ext_getElem?
  intro j
  simp only [StatMap.merged, List.getElem?_map, List.getElem?_modify]
  cases m[j]? with
  | none => rfl
  | some e => by_cases hij : i = j <;> simp [hij, Entry.merged]

theorem put_merged (q : Qualifier Q) (s : StatInst (P.spread N place)) (b : Buf (P.spread N place)) :
    StatMap.merged (Shared.put (mloc A place) m q s b) = (Vec.put A m.merged q s.merged b.merged).1 := by
  unfold Shared.put Vec.put
  rw [search_merged]
  cases Shared.search (mloc A place) m q s with
  | ok i => exact modify_merged m i b
  | error i => exact List.map_insertIdx ..

theorem find_merged (q : Qualifier Q) (s : StatInst (P.spread N place)) :
    Vec.find A m.merged q s.merged = (Shared.find (mloc A place) m q s).map Buf.merged := by
  unfold Shared.find Vec.find
  rw [search_merged]
  cases Shared.search (mloc A place) m q s with
  | ok i =>
    simp only [StatMap.merged, List.getElem?_map, Option.map_map]
    rfl
  | error i => rfl

theorem update_merged (q : Qualifier Q) (s : StatInst (P.spread N place)) (b : Buf (P.spread N place)) :
    StatMap.merged (Shared.update (mloc A place) m q s b) = Vec.update A m.merged q s.merged b.merged := by
  unfold Shared.update Vec.update
  rw [search_merged]
  cases Shared.search (mloc A place) m q s with
  | ok i => exact modify_merged m i b
  | error i => rfl

theorem pull_merged (q : Qualifier Q) (s : StatInst (P.spread N place)) :
    Vec.pull A m.merged q s.merged =
      (StatMap.merged (Shared.pull (mloc A place) m q s).1, (Shared.pull (mloc A place) m q s).2.map Buf.merged) := by
  unfold Shared.pull Vec.pull
  rw [search_merged]
  cases Shared.search (mloc A place) m q s with
  | ok i =>
    simp only [StatMap.merged, List.getElem?_map, Option.map_map, Prod.mk.injEq]
    exact ⟨List.eraseIdx_map .., rfl⟩
  | error i => rfl

theorem range_merged (s : StatInst (P.spread N place)) :
    Vec.range A m.merged s.merged = Shared.range (mloc A place) m s := by
  unfold Vec.range StatMap.merged
  rw [partitionPoint_map, partitionPoint_map]
  rfl

theorem slice_merged (s : StatInst (P.spread N place)) :
    Vec.slice A m.merged s.merged = (Shared.slice (mloc A place) m s).map (List.map Entry.merged) := by
  unfold Shared.slice Vec.slice
  rw [range_merged]
  simp only [StatMap.merged, List.length_map]
  split
  · rfl
  · simp [Except.map, List.map_take, List.map_drop]

theorem drain_merged (s : StatInst (P.spread N place)) :
    Vec.removeAll A m.merged s.merged = (Shared.drain (mloc A place) m s).map
      (fun r => (StatMap.merged r.1, r.2.map Entry.merged)) := by
  unfold Shared.drain Vec.removeAll
  rw [range_merged]
  simp only [StatMap.merged, List.length_map]
  split
  · rfl
  · simp [Except.map, List.map_take, List.map_drop]

theorem mapM_merged {α : Type} (f : Entry (P.spread N place) Q (Buf (P.spread N place)) → Res α)
    (g : Entry P Q (Buf P) → Res α) (h : ∀ e, g e.merged = f e)
    (l : List (Entry (P.spread N place) Q (Buf (P.spread N place)))) :
    (l.map Entry.merged).mapM g = l.mapM f := by
  induction l with
  | nil => rfl
  | cons e l ih => rw [List.map_cons, List.mapM_cons, List.mapM_cons, ih, h]

theorem mapM_merged' (f : Entry (P.spread N place) Q (Buf (P.spread N place)) → Res (Entry (P.spread N place) Q (Buf (P.spread N place))))
    (g : Entry P Q (Buf P) → Res (Entry P Q (Buf P))) (h : ∀ e, g e.merged = (f e).map Entry.merged)
    (l : List (Entry (P.spread N place) Q (Buf (P.spread N place)))) :
    (l.map Entry.merged).mapM g = (l.mapM f).map (List.map Entry.merged) := by
  induction l with
  | nil => rfl
  | cons e l ih =>
    rw [List.map_cons, List.mapM_cons, List.mapM_cons, ih, h]
    cases f e with
    | error e => rfl
    | ok b => cases l.mapM f <;> rfl

theorem sliceMut_merged (s : StatInst (P.spread N place)) (f : Buf (P.spread N place) → Res (Buf (P.spread N place)))
    (g : Buf P → Res (Buf P)) (h : ∀ b, g b.merged = (f b).map Buf.merged) :
    Vec.sliceMut A m.merged s.merged g = (Shared.sliceMut (mloc A place) m s f).map StatMap.merged := by
  unfold Shared.sliceMut Vec.sliceMut
  rw [range_merged]
  simp only [StatMap.merged, List.length_map]
  split
  · rfl
  · rw [← List.map_take, ← List.map_drop, mapM_merged' (fun e => (do
      let b ← f e.buf
      .ok { e with buf := b } : Res _)) _ (fun e => by
        show (g e.buf.merged >>= _) = _
        rw [h]
        cases f e.buf <;> rfl)]
    cases List.mapM (m := Except Err) (fun e : Entry (P.spread N place) Q (Buf (P.spread N place)) => (do
      let b ← f e.buf
      .ok { e with buf := b } : Res _)) (List.drop (Shared.range (mloc A place) m s).1 (List.take (Shared.range (mloc A place) m s).2 m)) with
    | error e => rfl
    | ok l => simp [Except.map, StatMap.merged]

theorem sorted_merged :
    Vec.sorted A m.merged = StatMap.merged (Shared.sorted (mloc A place) m) := by
  unfold Vec.sorted Shared.sorted StatMap.merged
  rw [List.map_mergeSort]
  intro a _ b _
  rfl

theorem entries_merged (T : N.S) (items : List (Qualifier Q × Nat × P.El (P.valTy (place T)))) :
    StatMap.entries (E := P) (place T) items =
      (StatMap.entries (E := P.spread N place) T items).map (List.map Entry.merged) := by
  induction items with
  | nil => rfl
  | cons x items ih =>
    obtain ⟨q, i, v⟩ := x
    show (Buf.from_ (E := P) (P.valTy (place T)) v >>= fun b => StatMap.entries (E := P) (place T) items >>= _) =
      Except.map _ (Buf.from_ (E := P.spread N place) (P.valTy (place T)) v >>= fun b =>
        StatMap.entries (E := P.spread N place) T items >>= _)
    rw [ih, ← Buf.from_merged (N := N) (place := place)]
    cases Buf.from_ (E := P.spread N place) (P.valTy (place T)) v with
    | error e => rfl
    | ok b => cases StatMap.entries (E := P.spread N place) T items <;> rfl

end StatMap
end BSQ
