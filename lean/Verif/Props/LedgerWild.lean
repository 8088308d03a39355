import Verif.Spec.LedgerWild
import Verif.Props.LedgerSerde
import Mathlib.Data.List.Induction
/-!
# C79: which methods stay memory safe on a map whose entries are out of order
-/
namespace BSQ
set_option linter.unusedSectionVars false
variable {E : Env} {Q : Type} [BitFlags Q] [FlagSet Q] [Ord Q] [Std.TransOrd Q] [Std.LawfulEqOrd Q] [DecidableEq Q]
  {A : Addr E}
open Vec

/-- `f` keeps the books of any vector, whatever the order of its entries -/
def KeepsBooks (f : Heap E.U → LMap E Q → Heap E.U × LMap E Q) (h : Heap E.U) (m : LMap E Q) : Prop :=
  ∀ R, Books h (LMap.cells m ++ R) →
    ∃ lost : List (Cell × E.U), Books (f h m).1 (LMap.cells (f h m).2 ++ (lost ++ R))

namespace KeepsBooks
variable {h : Heap E.U} {m : LMap E Q}

theorem found {q : Qualifier Q} {s : StatInst E} {i : Nat} (hi : m.search A q s = .ok i) :
    ∃ pre e post, m = pre ++ e :: post ∧ pre.length = i ∧ e.stat = s := by
  obtain ⟨hl, hk⟩ := search_ok_key hi
  refine ⟨m.take i, m[i], m.drop (i + 1), ?_, ?_, congrArg Key.stat hk⟩
  · rw [← List.drop_eq_getElem_cons, List.take_append_drop]
  · simp only [List.length_take]; omega

theorem find_mem {q : Qualifier Q} {s : StatInst E} {x : Cell} (hx : m.find A q s = some x) :
    (x, s.ty) ∈ LMap.cells m := by
  unfold Vec.find at hx
  cases hs : m.search A q s with
  | error i => rw [hs] at hx; cases hx
  | ok i =>
    obtain ⟨pre, e, post, rfl, rfl, rfl⟩ := found hs
    rw [hs] at hx
    simp only [List.getElem?_append_right (Nat.le_refl _), Nat.sub_self, List.getElem?_cons_zero, Option.map_some,
      Option.some.injEq] at hx
    subst hx
    simp [LMap.cells]

theorem put {q : Qualifier Q} {s : StatInst E} {x : Cell} {R : List (Cell × E.U)}
    (b : Books h ((x, s.ty) :: (LMap.cells m ++ R))) :
    ∃ lost : List (Cell × E.U), Books h (LMap.cells (m.put A q s x).1 ++ (lost ++ R)) := by
  unfold Vec.put
  cases hs : m.search A q s with
  | ok i =>
    obtain ⟨pre, e, post, rfl, rfl, rfl⟩ := found hs
    refine ⟨[(e.buf, e.stat.ty)], b.perm ?_⟩
    simp only
    rw [show (pre ++ e :: post).modify pre.length (fun e => { e with buf := x }) =
      pre ++ { e with buf := x } :: post by
        rw [List.modify_eq_take_cons_drop (h := by simp)]; simp]
    simp only [LMap.cells, List.map_append, List.map_cons]
    rw [List.perm_iff_count]
    intro a
    simp only [List.count_cons, List.count_append, List.count_nil]
    omega
  | error i =>
    by_cases hi : i ≤ m.length
    · refine ⟨[], b.perm ?_⟩
      simp only [List.nil_append]
      rw [← List.cons_append]
      refine List.Perm.append_right _ ?_
      exact ((List.perm_insertIdx ⟨s, q, x⟩ m hi).map (fun e => (e.buf, e.stat.ty))).symm
    · refine ⟨[(x, s.ty)], b.perm ?_⟩
      simp only
      rw [List.insertIdx_of_length_lt (by omega)]
      simp only [List.cons_append, List.nil_append]
      exact List.perm_middle.symm

theorem store {q : Qualifier Q} {s : StatInst E} {R : List (Cell × E.U)} (b : Books h (LMap.cells m ++ R)) :
    ∃ lost : List (Cell × E.U), Books (LMap.store A m q s (h.alloc s.ty)).1
      (LMap.cells (LMap.store A m q s (h.alloc s.ty)).2 ++ (lost ++ R)) := by
  rcases b.alloc s.ty with ⟨hs, h', x, h2, h3⟩ | ⟨hs, h', h2, h3⟩
  · simp only [h2, LMap.store]
    exact put h3
  · simp only [h2, LMap.store]
    exact ⟨[], h3⟩

theorem insert (q : Qualifier Q) (s : StatInst E) : KeepsBooks (fun h m => LMap.insert A h m q s) h m :=
  fun _ b => store b

theorem get (q : Qualifier Q) (s : StatInst E) : KeepsBooks (fun h m => LMap.get A h m q s) h m := by
  intro R b
  simp only [LMap.get]
  cases hx : m.find A q s with
  | none => exact ⟨[], b⟩
  | some x => exact ⟨[], b.use (List.mem_append_left _ (find_mem hx))⟩

theorem modify (q : Qualifier Q) (s : StatInst E) (fails : Bool) :
    KeepsBooks (fun h m => LMap.modify A h m q s fails) h m := by
  intro R b
  simp only [LMap.modify]
  cases hx : m.find A q s with
  | some x => exact ⟨[], b.use (List.mem_append_left _ (find_mem hx))⟩
  | none =>
    cases fails with
    | true => exact ⟨[], (b.create s.ty).drop⟩
    | false => exact store b

theorem remove (q : Qualifier Q) (s : StatInst E) : KeepsBooks (fun h m => LMap.remove A h m q s) h m := by
  intro R b
  simp only [LMap.remove, Vec.pull]
  cases hs : m.search A q s with
  | error i => exact ⟨[], b⟩
  | ok i =>
    obtain ⟨pre, e, post, rfl, rfl, rfl⟩ := found hs
    simp only [List.getElem?_append_right (Nat.le_refl _), Nat.sub_self, List.getElem?_cons_zero, Option.map_some]
    refine ⟨[], Books.move (b.perm ?_)⟩
    rw [List.eraseIdx_append_of_length_le (Nat.le_refl _)]
    simp only [LMap.cells, List.map_append, List.map_cons, List.append_assoc, List.cons_append, List.nil_append,
      Nat.sub_self, List.eraseIdx_cons_zero]
    exact List.perm_middle

theorem removeAll (s : StatInst E) : KeepsBooks (fun h (m : LMap E Q) => LMap.removeAll A h m s) h m := by
  intro R b
  simp only [LMap.removeAll, Vec.removeAll]
  split
  · rename_i hr
    split at hr
    · cases hr
    · rename_i hlt
      cases hr
      refine ⟨[], Books.dropAll (b.perm ?_)⟩
      simp only [List.nil_append, ← List.append_assoc]
      refine List.Perm.append_right _ ?_
      simp only [LMap.cells, ← List.map_append]
      refine List.Perm.map _ ?_
      generalize (Vec.range A m s).1 = a at *
      generalize (Vec.range A m s).2 = c at *
      have h1 : m = m.take a ++ (m.take c).drop a ++ m.drop c := by
        rw [show m.take a = (m.take c).take a by rw [List.take_take]; congr 1; omega, List.take_append_drop,
          List.take_append_drop]
      conv_lhs => rw [h1]
      rw [← List.append_assoc]
      exact List.perm_append_comm.append_right _
  · exact ⟨[], b⟩

theorem clear : KeepsBooks (LMap.clear (Q := Q)) h m := fun _ b => ⟨[], Books.dropAll b⟩

theorem extend (T : E.S) (items : List (Qualifier Q × Nat)) :
    KeepsBooks (fun h m => LMap.extend A h m T items) h m := by
  intro R b
  simp only [LMap.extend]
  rcases b.entries T false items with ⟨_, h', l', h1, h2, h3⟩ | ⟨hs, h', h1, h2⟩
  · simp only [h1]
    have hp : (Vec.sorted A (m ++ l')).Perm (m ++ l') := List.mergeSort_perm _ _
    refine ⟨[], h2.perm ?_⟩
    simp only [List.nil_append, ← List.append_assoc]
    refine List.Perm.append_right _ (List.perm_append_comm.trans ?_)
    unfold LMap.cells
    rw [← List.map_append]
    exact (hp.map _).symm
  · simp only [h1]
    exact ⟨[], h2⟩

theorem extendFails (T : E.S) (items : List (Qualifier Q × Nat)) :
    KeepsBooks (fun h m => LMap.extendFails h m T items) h m := by
  intro R b
  simp only [LMap.extendFails]
  rcases b.entries T false items with ⟨_, h', l', h1, h2, h3⟩ | ⟨hs, h', h1, h2⟩
  · simp only [h1]
    refine ⟨[], h2.perm ?_⟩
    simp only [List.nil_append, ← List.append_assoc]
    refine List.Perm.append_right _ (List.perm_append_comm.trans ?_)
    unfold LMap.cells
    rw [← List.map_append]
  · simp only [h1]
    exact ⟨[], h2⟩

theorem slice_mem {s : StatInst E} {l : List (Entry E Q Cell)} (hl : m.slice A s = .ok l) : ∀ e ∈ l, e ∈ m := by
  unfold Vec.slice at hl
  simp only at hl
  split at hl
  · cases hl
  · cases hl
    exact fun e he => List.mem_of_mem_take (List.mem_of_mem_drop he)

theorem iter (s : StatInst E) (hok : ∀ l, m.slice A s = .ok l → ∀ e ∈ l, e.stat.ty = s.ty) :
    KeepsBooks (fun h (m : LMap E Q) => LMap.iter A h m s) h m := by
  intro R b
  simp only [LMap.iter]
  cases hl : m.slice A s with
  | error _ => exact ⟨[], b⟩
  | ok l =>
    refine ⟨[], b.useAll fun e he => List.mem_append_left _ ?_⟩
    rw [← hok l hl e he]
    exact List.mem_map.2 ⟨e, slice_mem hl e he, rfl⟩

end KeepsBooks

theorem joinAll_upTo (s : StatInst E) (x : Cell) (h : Heap E.U) (l : LMap E Q) (failsAt : Option Nat) :
    (LMap.joinAll s x h l failsAt).1 = (LMap.joinAll s x h (upTo l failsAt) none).1 := by
  induction l generalizing h failsAt with
  | nil => cases failsAt <;> rfl
  | cons e l ih =>
    cases failsAt with
    | none => rfl
    | some n =>
      cases n with
      | zero => simp [LMap.joinAll, upTo]
      | succ n =>
        simp only [LMap.joinAll, upTo, Option.some.injEq, Nat.add_one_ne_zero, if_false, Option.map_some,
          Nat.add_sub_cancel, List.take_succ_cons, reduceCtorEq, Option.map_none]
        rw [ih]
        rfl

theorem KeepsBooks.query {h : Heap E.U} {m : LMap E Q} (q : QualifierQuery Q) (s : StatInst E) (failsAt : Option Nat)
    (hok : Storable (E.layout s.ty) → ∀ l, m.slice A s = .ok l →
      ∀ e ∈ upTo (l.filter fun e => e.qual.qualifiesAs q) failsAt, e.stat.ty = s.ty) :
    KeepsBooks (fun h m => LMap.query A h m q s failsAt) h m := by
  intro R b
  simp only [LMap.query]
  rcases b.alloc s.ty with ⟨hs, h', x, h2, h3⟩ | ⟨hs, h', h2, h3⟩
  · simp only [h2]
    cases hl : m.slice A s with
    | error _ =>
      refine ⟨[(x, s.ty)], h3.perm ?_⟩
      simp only [List.cons_append, List.nil_append]
      exact List.perm_middle.symm
    | ok l =>
      have hm : ∀ e ∈ upTo (l.filter fun e => e.qual.qualifiesAs q) failsAt, e ∈ m := by
        intro e he
        refine KeepsBooks.slice_mem hl e (List.mem_of_mem_filter (p := fun e => e.qual.qualifiesAs q) ?_)
        cases failsAt with
        | none => exact he
        | some n => exact List.mem_of_mem_take he
      have b1 := (h3.joinAll (l := upTo (l.filter fun e => e.qual.qualifiesAs q) failsAt) (s := s)
        List.mem_cons_self (fun e he => List.mem_cons_of_mem _ (List.mem_append_left _ (by
          rw [← hok hs l hl e he]
          exact List.mem_map.2 ⟨e, hm e he, rfl⟩))) none).1
      rw [← joinAll_upTo] at b1
      simp only
      generalize LMap.joinAll s x h' (l.filter fun e => e.qual.qualifiesAs q) failsAt = r at b1
      obtain ⟨h5, ok⟩ := r
      cases ok with
      | true => exact ⟨[], Books.move b1⟩
      | false =>
        refine ⟨[(x, s.ty)], b1.perm ?_⟩
        simp only [List.cons_append, List.nil_append]
        exact List.perm_middle.symm
  · simp only [h2]
    exact ⟨[], h3⟩

/-- the books of a program that may leave maps out of order -/
def WBooks (st : LState E Q) : Prop := ∃ R, Books st.heap (st.maps.flatMap LMap.cells ++ R)

theorem WBooks.on {st : LState E Q} (b : WBooks st) (i : Nat) {f : Heap E.U → LMap E Q → Heap E.U × LMap E Q}
    (hf : ∀ m, st.maps[i]? = some m → KeepsBooks f st.heap m) : WBooks (st.on i f) := by
  obtain ⟨R, b⟩ := b
  unfold LState.on
  cases hi : st.maps[i]? with
  | none => exact ⟨R, b⟩
  | some m =>
    obtain ⟨hlt, rfl⟩ := List.getElem?_eq_some_iff.1 hi
    have hsp : st.maps = st.maps.take i ++ st.maps[i] :: st.maps.drop (i + 1) := by
      rw [← List.drop_eq_getElem_cons, List.take_append_drop]
    have hset : ∀ y, st.maps.set i y = st.maps.take i ++ y :: st.maps.drop (i + 1) := fun y => by
      rw [List.set_eq_take_append_cons_drop, if_pos hlt]
    obtain ⟨lost, b'⟩ := hf _ hi ((st.maps.take i).flatMap LMap.cells ++
      ((st.maps.drop (i + 1)).flatMap LMap.cells ++ R)) (b.perm (by
        conv_lhs => rw [hsp]
        simp only [List.flatMap_append, List.flatMap_cons]
        rw [List.perm_iff_count]
        intro a
        simp only [List.count_append]
        omega))
    refine ⟨lost ++ R, b'.perm ?_⟩
    simp only [hset, List.flatMap_append, List.flatMap_cons]
    rw [List.perm_iff_count]
    intro a
    simp only [List.count_append]
    omega

theorem WBooks.push {st : LState E Q} {h : Heap E.U} {om : Option (LMap E Q)} {R : List (Cell × E.U)}
    (b : Books h ((om.elim [] LMap.cells) ++ (st.maps.flatMap LMap.cells ++ R))) : WBooks (st.push (h, om)) := by
  cases om with
  | none => exact ⟨R, b⟩
  | some m =>
    refine ⟨R, b.perm ?_⟩
    simp only [LState.push, Option.elim_some, List.flatMap_append, List.flatMap_cons, List.flatMap_nil,
      List.append_nil]
    rw [← List.append_assoc]
    exact List.perm_append_comm.append_right _

variable {X : Serde E Q} {sc : DeScope E}

theorem WBooks.step {st : LState E Q} (b : WBooks st) (o : WOp E Q) (ho : ¬ Misreads A st o) :
    WBooks (st.wild A X sc o) := by
  cases o with
  | extendFails i T items => exact b.on i fun m _ => KeepsBooks.extendFails T items
  | load d =>
    obtain ⟨R, b⟩ := b
    simp only [LState.wild]
    rcases Serde.ownMap_books (X := X) (sc := sc) d b with
      ⟨h', m, m', h1, h2, h3, h4, h5⟩ | ⟨h1, h', lost, h2, h3, h4⟩
    · rw [h1]
      exact WBooks.push (om := some m) h4
    · rw [h2]
      refine WBooks.push (om := none) (R := lost ++ R) (h3.perm ?_)
      simp only [Option.elim_none, List.nil_append, ← List.append_assoc]
      exact List.perm_append_comm.append_right _
  | op o =>
    cases o with
    | new =>
      obtain ⟨R, b⟩ := b
      exact ⟨R, by simpa [LState.wild, LState.step, LMap.cells] using b⟩
    | insert i q s => exact b.on i fun m _ => KeepsBooks.insert q s
    | get i q s => exact b.on i fun m _ => KeepsBooks.get q s
    | modify i q s fails => exact b.on i fun m _ => KeepsBooks.modify q s fails
    | remove i q s => exact b.on i fun m _ => KeepsBooks.remove q s
    | removeAll i s => exact b.on i fun m _ => KeepsBooks.removeAll s
    | clear i => exact b.on i fun m _ => KeepsBooks.clear
    | extend i T items => exact b.on i fun m _ => KeepsBooks.extend T items
    | iter i s =>
      refine b.on i fun m hm => KeepsBooks.iter s fun l hl e he => ?_
      by_contra hne
      exact ho ⟨m, l, e, hm, hl, he, hne⟩
    | query i q s failsAt =>
      refine b.on i fun m hm => KeepsBooks.query q s failsAt fun hs l hl e he => ?_
      by_contra hne
      refine ho ⟨hs, m, l, e, hm, hl, ?_, hne⟩
      convert he using 4
      rw [Bool.eq_iff_iff, matches_iff]
      simp
    | clone i failsAt =>
      obtain ⟨R, b⟩ := b
      simp only [LState.wild, LState.step]
      cases hi : st.maps[i]? with
      | none => exact ⟨R, b⟩
      | some m =>
        simp only [LMap.clone]
        obtain ⟨b1, -, -⟩ := Books.cloneAll m b (fun e he => List.mem_append_left _
          (List.mem_flatMap.2 ⟨m, List.mem_of_getElem? hi, List.mem_map.2 ⟨e, he, rfl⟩⟩)) failsAt
        generalize LMap.cloneAll st.heap m failsAt = r at b1
        obtain ⟨h', l', ok⟩ := r
        cases ok with
        | true => exact WBooks.push (om := some l') b1
        | false => exact WBooks.push (om := none) (Books.dropAll b1)
    | fromIter T items fails =>
      obtain ⟨R, b⟩ := b
      simp only [LState.wild, LState.step, LMap.fromIter]
      rcases b.entries T fails items with ⟨hs, h', l, h1, h2, h3⟩ | ⟨hs, h', h1, h2⟩
      · simp only [h1]
        refine WBooks.push (om := some _) (h2.perm (List.Perm.append_right _ ?_))
        exact ((List.mergeSort_perm _ _).map _).symm
      · simp only [h1]
        exact WBooks.push (om := none) h2
    | dropMap i =>
      obtain ⟨R, b⟩ := b
      simp only [LState.wild, LState.step]
      cases hi : st.maps[i]? with
      | none => exact ⟨R, b⟩
      | some m =>
        obtain ⟨hlt, rfl⟩ := List.getElem?_eq_some_iff.1 hi
        refine ⟨R, Books.dropAll (b.perm ?_)⟩
        have hsp : st.maps = st.maps.take i ++ st.maps[i] :: st.maps.drop (i + 1) := by
          rw [← List.drop_eq_getElem_cons, List.take_append_drop]
        rw [List.eraseIdx_eq_take_drop_succ]
        conv_lhs => rw [hsp]
        simp only [List.flatMap_append, List.flatMap_cons]
        rw [List.perm_iff_count]
        intro a
        simp only [List.count_append]
        omega

/-- no step of the program so far has read a value at another type -/
def NeverMisreads (A : Addr E) (X : Serde E Q) (sc : DeScope E) (os : List (WOp E Q)) : Prop :=
  ∀ pre o post, os = pre ++ o :: post → ¬ Misreads A (LState.runWild A X sc pre) o

theorem runWild_snoc (os : List (WOp E Q)) (o : WOp E Q) :
    LState.runWild A X sc (os ++ [o]) = (LState.runWild A X sc os).wild A X sc o := by
  simp [LState.runWild]

theorem wbooks (os : List (WOp E Q)) (ho : NeverMisreads A X sc os) : WBooks (LState.runWild A X sc os) := by
  induction os using List.reverseRecOn with
  | nil => exact ⟨[], Books.new⟩
  | append_singleton os o ih =>
    rw [runWild_snoc]
    refine (ih fun pre o' post h => ho pre o' (post ++ [o]) (by rw [h]; simp)).step o (ho os o [] rfl)

/-- an access at another type than the value was created at is not sound -/
theorem Sound.no_other_type {U : Type} {log : List (Mem U)} (h : Sound log) {x : Cell} {u v : U}
    (h1 : Mem.create x u ∈ log) (h2 : Mem.use x v ∈ log) : u = v := by
  obtain ⟨b, a, rfl⟩ := List.append_of_mem h2
  have h3 := ((h b (.use x v) a rfl).2 rfl).1
  have h3 : Mem.create x v ∈ b ++ Mem.use x v :: a := List.mem_append_left _ h3
  generalize b ++ Mem.use x v :: a = log at *
  obtain ⟨b1, a1, rfl⟩ := List.append_of_mem h1
  rcases List.mem_append.1 h3 with h4 | h4
  · exact absurd rfl ((h b1 (.create x u) a1 rfl).1 rfl (.create x v) h4)
  · rcases List.mem_cons.1 h4 with h4 | h4
    · cases h4; rfl
    · obtain ⟨b2, a2, rfl⟩ := List.append_of_mem h4
      have := (h (b1 ++ Mem.create x u :: b2) (.create x v) a2 (by simp)).1 rfl (.create x u) (by simp)
      exact absurd rfl this

theorem useAll_log (s : StatInst E) (l : LMap E Q) (h : Heap E.U) :
    (l.foldl (fun h e => h.use e.buf s.ty) h).log = h.log ++ l.map (fun e => Mem.use e.buf s.ty) := by
  induction l generalizing h with
  | nil => simp
  | cons e l ih =>
    rw [List.foldl_cons, ih]
    simp [Heap.use]

theorem joinAll_log (s : StatInst E) (x : Cell) (l : LMap E Q) (h : Heap E.U) :
    (LMap.joinAll s x h l none).1.log =
      h.log ++ l.flatMap (fun e => [Mem.use x s.ty, Mem.use e.buf s.ty]) := by
  induction l generalizing h with
  | nil => simp [LMap.joinAll]
  | cons e l ih =>
    simp only [LMap.joinAll, reduceCtorEq, if_false, Option.map_none]
    rw [ih]
    simp [Heap.use]

theorem not_sound_of_misreads {st : LState E Q} (b : WBooks st) {o : WOp E Q} (ho : Misreads A st o) :
    ¬ Sound (st.wild A X sc o).heap.log := by
  obtain ⟨R, b⟩ := b
  have hc : ∀ (i : Nat) (m : LMap E Q) (e : Entry E Q Cell), st.maps[i]? = some m → e ∈ m →
      Mem.create e.buf e.stat.ty ∈ st.heap.log := fun i m e hi he =>
    (b.alive e.buf e.stat.ty (List.mem_append_left _ (List.mem_flatMap.2
      ⟨m, List.mem_of_getElem? hi, List.mem_map.2 ⟨e, he, rfl⟩⟩))).1
  intro hs
  cases o with
  | extendFails i T items => exact ho
  | load d => exact ho
  | op o =>
    cases o with
    | iter i s =>
      obtain ⟨m, l, e, hi, hl, he, hne⟩ := ho
      simp only [LState.wild, LState.step, LState.on, hi, LMap.iter, hl, useAll_log] at hs
      exact hne (hs.no_other_type (List.mem_append_left _ (hc i m e hi (KeepsBooks.slice_mem hl e he)))
        (List.mem_append_right _ (List.mem_map.2 ⟨e, he, rfl⟩)))
    | query i q s failsAt =>
      obtain ⟨hst, m, l, e, hi, hl, he, hne⟩ := ho
      have he' : e ∈ upTo (l.filter fun e => e.qual.qualifiesAs q) failsAt := by
        convert he using 4
        rw [Bool.eq_iff_iff, matches_iff]
        simp
      have hm : e ∈ m := by
        refine KeepsBooks.slice_mem hl e (List.mem_of_mem_filter (p := fun e => e.qual.qualifiesAs q) ?_)
        cases failsAt with
        | none => exact he'
        | some n => exact List.mem_of_mem_take he'
      have ha : st.heap.alloc s.ty = ((st.heap.create s.ty).1, some (st.heap.create s.ty).2) := by
        unfold Heap.alloc Heap.fill
        rw [validate_eq, if_pos hst]
      simp only [LState.wild, LState.step, LState.on, hi, LMap.query, ha, hl] at hs
      have hlog := joinAll_log s (st.heap.create s.ty).2 (upTo (l.filter fun e => e.qual.qualifiesAs q) failsAt)
        (st.heap.create s.ty).1
      rw [← joinAll_upTo] at hlog
      generalize LMap.joinAll s (st.heap.create s.ty).2 (st.heap.create s.ty).1
        (l.filter fun e => e.qual.qualifiesAs q) failsAt = r at hs hlog
      have hsub : ∀ d ∈ r.1.log, d ∈ (LMap.finish s (st.heap.create s.ty).2 r).log := by
        intro d hd
        obtain ⟨h', ok⟩ := r
        cases ok with
        | true => exact List.mem_append_left _ hd
        | false => exact hd
      refine hne (hs.no_other_type (x := e.buf) (hsub _ ?_) (hsub _ ?_))
      · rw [hlog]
        exact List.mem_append_left _ (List.mem_append_left _ (hc i m e hi hm))
      · rw [hlog]
        exact List.mem_append_right _ (List.mem_flatMap.2 ⟨e, he', by simp⟩)
    | _ => exact ho

/-- **C79**: in programs that catch panics of iterators given to `extend`, and load maps from any data, so that maps
may be out of order, `insert`, `get`, `get_mut`, `remove`, `modify`, `remove_all`, `clear`, `extend`, `clone` and
dropping maps are memory safe: no value is read or dropped at another type than its own or after it is gone. -/
theorem C79_keyed_sound (X : Serde E Q) (sc : DeScope E) (os : List (WOp E Q)) (h : ∀ o ∈ os, ¬ o.ReadsRange) :
    Sound (LState.runWild A X sc os).finish.log ∧ Sound (LState.runWild A X sc os).heap.log := by
  obtain ⟨R, b⟩ := wbooks (A := A) (X := X) (sc := sc) os fun pre o post ho hm => by
    refine h o (by rw [ho]; simp) ?_
    cases o with
    | extendFails i T items => exact hm
    | load d => exact hm
    | op o =>
      cases o with
      | iter i s => exact True.intro
      | query i q s failsAt => exact True.intro
      | _ => exact hm
  exact ⟨(Books.dropMaps _ b).sound, b.sound⟩

/-- C79, exactly: as long as nothing has been misread, the next step is sound unless it reads a range that contains
an entry of another type. -/
theorem C79_exact (X : Serde E Q) (sc : DeScope E) (os : List (WOp E Q)) (o : WOp E Q)
    (h : NeverMisreads A X sc os) :
    Sound (LState.runWild A X sc (os ++ [o])).heap.log ↔ ¬ Misreads A (LState.runWild A X sc os) o := by
  rw [runWild_snoc]
  constructor
  · exact fun hs hm => not_sound_of_misreads (wbooks os h) hm hs
  · intro hm
    obtain ⟨R, b⟩ := (wbooks os h).step (X := X) (sc := sc) o hm
    exact b.sound

/-- C79: a program without misreading steps is sound to the end -/
theorem C79_sound (X : Serde E Q) (sc : DeScope E) (os : List (WOp E Q)) (h : NeverMisreads A X sc os) :
    Sound (LState.runWild A X sc os).finish.log := by
  obtain ⟨R, b⟩ := wbooks os h
  exact (Books.dropMaps _ b).sound

/-- C79: reading a range is not: a caught panic in `extend` puts an integer stat after a flag stat, and `iter` over
the flag stat then reads the integer stat as flags. -/
theorem C79_range_refuted :
    let reg : Registry demo := fun _ => none
    let os : List (WOp demo (BitVec 8)) := [.op .new, .op (.insert 0 ⟨0, 0⟩ (demoInt 0)),
      .op (.insert 0 ⟨0, 0⟩ (demoFlag 0)), .extendFails 0 true [(⟨0, 0⟩, 1)], .op (.iter 0 (demoFlag 0))]
    ¬ Sound (LState.runWild demoAddr demoSerde (.registry reg) os).heap.log := by
  intro reg os hs
  have h1 : Mem.create 2 (demoInt 1).ty ∈ (LState.runWild demoAddr demoSerde (.registry reg) os).heap.log := by
    decide +kernel
  have h2 : Mem.use 2 (demoFlag 0).ty ∈ (LState.runWild demoAddr demoSerde (.registry reg) os).heap.log := by
    decide +kernel
  exact absurd (hs.no_other_type h1 h2) (by decide)

/-- C79: a program that loads a map out of order, continues after an interrupted `extend`, and only uses keys -/
example :
    let reg : Registry demo := fun n =>
      if n = "int0" then some (demoInt 0) else if n = "flag1" then some (demoFlag 1) else none
    let d : Data := .fields [("inner", .seq [.seq [.other [1, 0], .str "flag1", .seq [.other [0], .other [5]]],
      .seq [.other [1, 0], .str "int0", .other [6, 0, 9, 1]]])]
    let os : List (WOp demo (BitVec 8)) := [.load d, .extendFails 0 true [(⟨0, 0⟩, 1)],
      .op (.insert 0 ⟨0, 0⟩ (demoFlag 0)), .op (.get 0 ⟨0, 0⟩ (demoFlag 0)), .op (.removeAll 0 (demoInt 1)),
      .op (.clone 0 none)]
    (∀ o ∈ os, ¬ o.ReadsRange) ∧
    ((LState.runWild demoAddr demoSerde (.registry reg) os).maps.map List.length) = [3, 3] := by
  refine ⟨?_, by decide +kernel⟩
  intro o ho
  simp only [List.mem_cons, List.not_mem_nil, or_false] at ho
  rcases ho with rfl | rfl | rfl | rfl | rfl | rfl <;> exact id

end BSQ
