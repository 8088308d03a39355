import Verif.Spec.Ledger
import Verif.Proofs.Vec
import Verif.Proofs.StatMap
/-! # Keeping accounts -/
set_option linter.unusedSectionVars false
namespace BSQ

section
variable {U : Type}

theorem sound_nil : Sound ([] : List (Mem U)) := by
  intro b e a h
  simp at h

theorem sound_snoc {log : List (Mem U)} {e : Mem U} (h : Sound log)
    (h1 : e.begins = true → ∀ d ∈ log, d.cell ≠ e.cell)
    (h2 : e.begins = false → Mem.create e.cell e.at_ ∈ log ∧ ∀ d ∈ log, d.ends = true → d.cell ≠ e.cell) :
    Sound (log ++ [e]) := by
  intro b d a hd
  rcases List.eq_nil_or_concat a with rfl | ⟨a', x, rfl⟩
  · have := List.append_inj' hd rfl
    obtain ⟨rfl, h3⟩ := this
    cases h3
    exact ⟨h1, h2⟩
  · have hd' : log ++ [e] = (b ++ d :: a') ++ [x] := by simpa using hd
    obtain ⟨rfl, -⟩ := List.append_inj' hd' rfl
    exact h b d a' rfl

/-- a value is alive: created at `u`, neither dropped nor moved out -/
def Alive (log : List (Mem U)) (x : Cell) (u : U) : Prop :=
  Mem.create x u ∈ log ∧ ∀ d ∈ log, d.ends = true → d.cell ≠ x

/-- the books: `O` lists the values somebody is responsible for, with their types -/
structure Books (h : Heap U) (O : List (Cell × U)) : Prop where
  sound : Sound h.log
  fresh : ∀ d ∈ h.log, d.cell < h.next
  alive : ∀ x u, (x, u) ∈ O → Alive h.log x u
  nodup : (O.map (·.1)).Nodup
  all : (unreleased h.log).Perm (O.map (·.1))

theorem Books.new : Books (Heap.new : Heap U) [] where
  sound := sound_nil
  fresh d hd := by cases hd
  alive x u h := by cases h
  nodup := .nil
  all := .refl _

theorem Books.perm {h : Heap U} {O O' : List (Cell × U)} (b : Books h O) (hp : O.Perm O') : Books h O' where
  sound := b.sound
  fresh := b.fresh
  alive x u hx := b.alive x u (hp.mem_iff.2 hx)
  nodup := (hp.map _).nodup_iff.1 b.nodup
  all := b.all.trans (hp.map _)

theorem Books.create {h : Heap U} {O : List (Cell × U)} (b : Books h O) (u : U) :
    Books (h.create u).1 ((h.next, u) :: O) where
  sound := sound_snoc b.sound (fun _ d hd => Nat.ne_of_lt (b.fresh d hd)) (fun hn => by cases hn)
  fresh d hd := by
    rcases List.mem_append.1 hd with hd | hd
    · exact Nat.lt_succ_of_lt (b.fresh d hd)
    · cases List.mem_singleton.1 hd; exact Nat.lt_succ_self _
  alive x v hx := by
    rcases List.mem_cons.1 hx with hx | hx
    · cases hx
      refine ⟨by simp [Heap.create], fun d hd he => ?_⟩
      rcases List.mem_append.1 hd with hd | hd
      · exact Nat.ne_of_lt (b.fresh d hd)
      · cases List.mem_singleton.1 hd; cases he
    · obtain ⟨h1, h2⟩ := b.alive x v hx
      refine ⟨List.mem_append_left _ h1, fun d hd he => ?_⟩
      rcases List.mem_append.1 hd with hd | hd
      · exact h2 d hd he
      · cases List.mem_singleton.1 hd; cases he
  nodup := by
    simp only [List.map_cons, List.nodup_cons]
    refine ⟨fun hm => ?_, b.nodup⟩
    obtain ⟨⟨x, v⟩, hx, hxe⟩ := List.mem_map.1 hm
    have := b.fresh _ (b.alive x v hx).1
    change x = h.next at hxe
    change x < h.next at this
    rw [hxe] at this
    exact Nat.lt_irrefl _ this
  all := by
    have : unreleased (h.log ++ [Mem.create h.next u]) = unreleased h.log ++ [h.next] := by
      unfold unreleased
      simp only [List.filter_append, List.map_append, List.any_append]
      congr 1
      · refine List.filter_congr fun x _ => ?_
        simp [Mem.ends]
      · have hn : ∀ d ∈ h.log, d.ends = true → d.cell ≠ h.next := fun d hd _ => Nat.ne_of_lt (b.fresh d hd)
        have hf : [Mem.create h.next u].filter (fun e => e.begins) = [Mem.create h.next u] := rfl
        rw [hf]
        have ha : h.log.any (fun d => d.ends && d.cell == h.next) = false := by
          rw [List.any_eq_false]
          intro d hd
          simpa using hn d hd
        simpa [Mem.cell, Mem.ends] using ha
    change (unreleased (h.log ++ [Mem.create h.next u])).Perm _
    rw [this]
    exact (b.all.append_right _).trans (List.perm_append_comm)

theorem Books.use {h : Heap U} {O : List (Cell × U)} (b : Books h O) {x : Cell} {u : U} (hx : (x, u) ∈ O) :
    Books (h.use x u) O where
  sound := sound_snoc b.sound (fun hn => by cases hn) (fun _ => b.alive x u hx)
  fresh d hd := by
    rcases List.mem_append.1 hd with hd | hd
    · exact b.fresh d hd
    · cases List.mem_singleton.1 hd; exact b.fresh (.create x u) (b.alive x u hx).1
  alive y v hy := by
    obtain ⟨h1, h2⟩ := b.alive y v hy
    refine ⟨List.mem_append_left _ h1, fun d hd he => ?_⟩
    rcases List.mem_append.1 hd with hd | hd
    · exact h2 d hd he
    · cases List.mem_singleton.1 hd; cases he
  nodup := b.nodup
  all := by
    have : unreleased (h.log ++ [Mem.use x u]) = unreleased h.log := by
      unfold unreleased
      simp [List.filter_append, Mem.begins, Mem.ends]
    change (unreleased (h.log ++ [Mem.use x u])).Perm _
    rw [this]
    exact b.all

theorem Books.ends {h : Heap U} {O : List (Cell × U)} {x : Cell} {u : U} (b : Books h ((x, u) :: O))
    {e : Mem U} (he : e = .move x u ∨ e = .drop x u) : Books ⟨h.next, h.log ++ [e]⟩ O := by
  have hc : e.cell = x := by rcases he with rfl | rfl <;> rfl
  have hu : e.at_ = u := by rcases he with rfl | rfl <;> rfl
  have hb : e.begins = false := by rcases he with rfl | rfl <;> rfl
  have hE : e.ends = true := by rcases he with rfl | rfl <;> rfl
  have hx := b.alive x u List.mem_cons_self
  have hnd := b.nodup
  simp only [List.map_cons, List.nodup_cons] at hnd
  refine ⟨sound_snoc b.sound (fun hn => by rw [hb] at hn; cases hn) (fun _ => by rw [hc, hu]; exact hx), ?_, ?_, hnd.2, ?_⟩
  · intro d hd
    rcases List.mem_append.1 hd with hd | hd
    · exact b.fresh d hd
    · cases List.mem_singleton.1 hd
      rw [hc]
      exact b.fresh (.create x u) hx.1
  · intro y v hy
    obtain ⟨h1, h2⟩ := b.alive y v (List.mem_cons_of_mem _ hy)
    refine ⟨List.mem_append_left _ h1, fun d hd hde => ?_⟩
    rcases List.mem_append.1 hd with hd | hd
    · exact h2 d hd hde
    · cases List.mem_singleton.1 hd
      rw [hc]
      rintro rfl
      exact hnd.1 (List.mem_map.2 ⟨_, hy, rfl⟩)
  · have : unreleased (h.log ++ [e]) = (unreleased h.log).filter (fun y => !(x == y)) := by
      unfold unreleased
      simp only [List.filter_append, List.map_append, List.filter_filter, List.any_append]
      have h0 : ([e].filter (fun e => e.begins)) = [] := by simp [hb]
      rw [h0, List.map_nil, List.filter_nil, List.append_nil]
      refine List.filter_congr fun y _ => ?_
      simp [hE, hc, Bool.and_comm]
    rw [this]
    have hp := b.all.filter (fun y => !(x == y))
    refine hp.trans ?_
    have h1 : (((x, u) :: O).map (·.1)).filter (fun y => !(x == y)) = O.map (·.1) := by
      simp only [List.map_cons, List.filter_cons, beq_self_eq_true, Bool.not_true, Bool.false_eq_true, if_false]
      refine List.filter_eq_self.2 fun y hy => ?_
      have : x ≠ y := by rintro rfl; exact hnd.1 hy
      simpa using this
    rw [h1]

theorem Books.move {h : Heap U} {O : List (Cell × U)} {x : Cell} {u : U} (b : Books h ((x, u) :: O)) :
    Books (h.move x u) O := b.ends (.inl rfl)
theorem Books.drop {h : Heap U} {O : List (Cell × U)} {x : Cell} {u : U} (b : Books h ((x, u) :: O)) :
    Books (h.drop x u) O := b.ends (.inr rfl)

end

variable {E : Env} {Q : Type}

/-- a buffer is filled, or its value is dropped -/
theorem Books.fill {h : Heap E.U} {O : List (Cell × E.U)} {x : Cell} {u : E.U} (b : Books h ((x, u) :: O)) :
    (Storable (E.layout u) ∧ h.fill x u = (h, some x)) ∨
    (¬ Storable (E.layout u) ∧ ∃ h', h.fill x u = (h', none) ∧ Books h' O) := by
  unfold Heap.fill
  rw [validate_eq]
  by_cases hs : Storable (E.layout u)
  · exact .inl ⟨hs, by simp [hs]⟩
  · exact .inr ⟨hs, _, by simp [hs], b.drop⟩

theorem Books.alloc {h : Heap E.U} {O : List (Cell × E.U)} (b : Books h O) (u : E.U) :
    (Storable (E.layout u) ∧ ∃ h' x, h.alloc u = (h', some x) ∧ Books h' ((x, u) :: O)) ∨
    (¬ Storable (E.layout u) ∧ ∃ h', h.alloc u = (h', none) ∧ Books h' O) := by
  rcases (b.create u).fill with ⟨h1, h2⟩ | ⟨h1, h', h2, h3⟩
  · exact .inl ⟨h1, _, _, h2, b.create u⟩
  · exact .inr ⟨h1, h', h2, h3⟩

/-! ### vectors of cells -/

/-- the values a vector is responsible for -/
def LMap.cells (m : LMap E Q) : List (Cell × E.U) := m.map (fun e => (e.buf, e.stat.ty))

theorem Books.dropAll {h : Heap E.U} {O : List (Cell × E.U)} {m : LMap E Q} (b : Books h (m.cells ++ O)) :
    Books (LMap.dropAll h m) O := by
  induction m generalizing h with
  | nil => exact b
  | cons e m ih => exact ih (h := h.drop e.buf e.stat.ty) (Books.drop b)

theorem Books.useAll {h : Heap E.U} {O : List (Cell × E.U)} {l : LMap E Q} {s : StatInst E} (b : Books h O)
    (hl : ∀ e ∈ l, (e.buf, s.ty) ∈ O) : Books (l.foldl (fun h e => h.use e.buf s.ty) h) O := by
  induction l generalizing h with
  | nil => exact b
  | cons e l ih =>
    exact ih (b.use (hl e List.mem_cons_self)) (fun x hx => hl x (List.mem_cons_of_mem _ hx))

theorem Books.cloneAll {h : Heap E.U} {O : List (Cell × E.U)} (l : LMap E Q) (b : Books h O)
    (hl : ∀ e ∈ l, (e.buf, e.stat.ty) ∈ O) (failsAt : Option Nat) :
    Books (LMap.cloneAll h l failsAt).1 (LMap.cells (LMap.cloneAll h l failsAt).2.1 ++ O) ∧
    ((LMap.cloneAll h l failsAt).2.2 = true →
      (LMap.cloneAll h l failsAt).2.1.map Entry.key = l.map Entry.key) ∧
    ((LMap.cloneAll h l failsAt).2.2 = false ↔ ∃ n, failsAt = some n ∧ n < l.length) := by
  induction l generalizing h O failsAt with
  | nil => exact ⟨b, fun _ => rfl, by simp [LMap.cloneAll]⟩
  | cons e l ih =>
    unfold LMap.cloneAll
    by_cases hf : failsAt = some 0
    · simp only [hf, if_true]
      exact ⟨b.use (hl e List.mem_cons_self), fun h => (by cases h), by simp⟩
    · simp only [hf, if_false]
      obtain ⟨h1, h2, h3⟩ := ih (h := ((h.use e.buf e.stat.ty).create e.stat.ty).1)
        ((b.use (hl e List.mem_cons_self)).create e.stat.ty)
        (fun x hx => List.mem_cons_of_mem _ (hl x (List.mem_cons_of_mem _ hx))) (failsAt.map (· - 1))
      refine ⟨?_, fun hh => ?_, ?_⟩
      · exact h1.perm (List.perm_middle)
      · simp only [List.map_cons, h2 hh]
      · rw [h3]
        cases failsAt with
        | none => simp
        | some n =>
          cases n with
          | zero => exact absurd rfl hf
          | succ n => simp

theorem Books.joinAll {h : Heap E.U} {O : List (Cell × E.U)} {l : LMap E Q} {s : StatInst E} {x : Cell}
    (b : Books h O) (hx : (x, s.ty) ∈ O) (hl : ∀ e ∈ l, (e.buf, s.ty) ∈ O) (failsAt : Option Nat) :
    Books (LMap.joinAll s x h l failsAt).1 O ∧
    ((LMap.joinAll s x h l failsAt).2 = false ↔ ∃ n, failsAt = some n ∧ n < l.length) := by
  induction l generalizing h failsAt with
  | nil => exact ⟨b, by simp [LMap.joinAll]⟩
  | cons e l ih =>
    unfold LMap.joinAll
    have b' := (b.use hx).use (hl e List.mem_cons_self)
    by_cases hf : failsAt = some 0
    · simp only [hf, if_true]
      exact ⟨b', by simp⟩
    · simp only [hf, if_false]
      obtain ⟨h1, h2⟩ := ih b' (fun y hy => hl y (List.mem_cons_of_mem _ hy)) (failsAt.map (· - 1))
      refine ⟨h1, ?_⟩
      rw [h2]
      cases failsAt with
      | none => simp
      | some n =>
        cases n with
        | zero => exact absurd rfl hf
        | succ n => simp

theorem Books.entries {h : Heap E.U} {O : List (Cell × E.U)} (T : E.S) (fails : Bool)
    (items : List (Qualifier Q × Nat)) (b : Books h O) :
    ((fails = false ∧ (items = [] ∨ Storable (E.layout (E.valTy T)))) ∧
      ∃ h' l, LMap.entries T fails h items = (h', some l) ∧
      Books h' (LMap.cells l ++ O) ∧ l.map Entry.key = items.map fun x => ⟨⟨T, x.2⟩, x.1⟩) ∨
    (¬ (fails = false ∧ (items = [] ∨ Storable (E.layout (E.valTy T)))) ∧
      ∃ h', LMap.entries T fails h items = (h', none) ∧ Books h' O) := by
  induction items generalizing h O with
  | nil =>
    cases fails with
    | false => exact .inl ⟨⟨rfl, .inl rfl⟩, h, [], rfl, b, rfl⟩
    | true => exact .inr ⟨by simp, h, rfl, b⟩
  | cons it items ih =>
    obtain ⟨q, i⟩ := it
    unfold LMap.entries
    rcases b.alloc (E.valTy T) with ⟨hs, h1, x, h2, h3⟩ | ⟨hs, h1, h2, h3⟩
    · simp only [h2]
      rcases ih h3 with ⟨⟨hf, _⟩, h4, l, h5, h6, h7⟩ | ⟨hn, h4, h5, h6⟩
      · simp only [h5]
        exact .inl ⟨⟨hf, .inr hs⟩, h4, _, rfl, h6.perm List.perm_middle, by simp [h7]⟩
      · simp only [h5]
        exact .inr ⟨fun h => hn ⟨h.1, .inr hs⟩, _, rfl, h6.drop⟩
    · simp only [h2]
      exact .inr ⟨by simp [hs], h1, rfl, h3⟩

/-! ### weakly sorted vectors: a key may occur several times (after `from_iter` and `extend`) -/

namespace Vec
variable {B : Type} [Ord Q] [Std.TransOrd Q] [Std.LawfulEqOrd Q] {A : Addr E}

/-- ascending keys, possibly repeated -/
def WSorted (A : Addr E) (m : Vec E Q B) : Prop := m.Pairwise (fun a b => Key.cmp A a.key b.key ≠ .gt)

theorem WSorted.stat_le {m : Vec E Q B} (h : WSorted A m) :
    m.Pairwise (fun a b => a.stat.cmp A b.stat ≠ .gt) := by
  refine h.imp ?_
  intro a b hab hgt
  apply hab
  show (a.stat.cmp A b.stat).then _ = .gt
  rw [hgt]; rfl

theorem wsplit {m : Vec E Q B} (h : WSorted A m) (q : Qualifier Q) (s : StatInst E) :
    (∃ pre e post, m = pre ++ e :: post ∧ e.key = ⟨s, q⟩ ∧ m.search A q s = .ok pre.length) ∨
    (∃ pre post, m = pre ++ post ∧ m.search A q s = .error pre.length ∧
      (∀ x ∈ pre, KLt A x.key ⟨s, q⟩) ∧ ∀ x ∈ post, KLt A ⟨s, q⟩ x.key) := by
  have hk : ∀ e : Entry E Q B, e.keyCmp A s q = Key.cmp A e.key ⟨s, q⟩ := fun _ => rfl
  have ho : Ordered m (fun e => e.keyCmp A s q) := by
    refine h.imp ?_
    intro a b hab
    simp only [hk]
    have hle := Ordering.isLE_iff_ne_gt.2 hab
    refine ⟨fun hgt => ?_, fun hlt => Std.TransCmp.lt_of_isLE_of_lt (cmp := Key.cmp A) hle hlt⟩
    exact KLt.gt.1 (Std.TransCmp.lt_of_lt_of_isLE (cmp := Key.cmp A) (KLt.gt.2 hgt) hle)
  have key := binarySearchBy_spec ho
  unfold search
  split at key
  · rename_i i hi
    obtain ⟨hil, he⟩ := key
    left
    refine ⟨m.take i, m[i], m.drop (i + 1), by simp, ?_, by rw [hi]; simp; omega⟩
    rw [hk] at he
    exact Std.LawfulEqCmp.eq_of_compare he
  · rename_i i hi
    obtain ⟨hil, h2, h3⟩ := key
    right
    refine ⟨m.take i, m.drop i, by simp, by rw [hi]; simp; omega, ?_, ?_⟩
    · intro x hx
      obtain ⟨j, hj, rfl⟩ := List.mem_iff_getElem.1 hx
      simp only [List.length_take] at hj
      rw [List.getElem_take]
      exact h2 j (by omega) (by omega)
    · intro x hx
      obtain ⟨j, hj, rfl⟩ := List.mem_iff_getElem.1 hx
      simp only [List.length_drop] at hj
      rw [List.getElem_drop]
      exact KLt.gt.2 (h3 _ (by omega) (by omega))

theorem wsorted_iff {m : Vec E Q B} :
    WSorted A m ↔ (m.map Entry.key).Pairwise (fun a b => Key.cmp A a b ≠ .gt) := by
  unfold WSorted
  rw [List.pairwise_map]

theorem WSorted.of_keys {m m' : Vec E Q B} (h : WSorted A m) (hk : m'.map Entry.key = m.map Entry.key) :
    WSorted A m' := by rw [wsorted_iff, hk, ← wsorted_iff]; exact h

theorem wsorted_insert {pre post : Vec E Q B} (h : WSorted A (pre ++ post)) {q : Qualifier Q} {s : StatInst E}
    (b : B) (h1 : ∀ x ∈ pre, KLt A x.key ⟨s, q⟩) (h2 : ∀ x ∈ post, KLt A ⟨s, q⟩ x.key) :
    WSorted A (pre ++ ⟨s, q, b⟩ :: post) := by
  have hlt : ∀ {a c : Key E Q}, KLt A a c → Key.cmp A a c ≠ .gt := by
    intro a c h hgt
    unfold KLt at h
    rw [h] at hgt; cases hgt
  unfold WSorted at h ⊢
  rw [List.pairwise_append] at h ⊢
  refine ⟨h.1, List.pairwise_cons.2 ⟨fun x hx => hlt (h2 x hx), h.2.1⟩, fun x hx y hy => ?_⟩
  rcases List.mem_cons.1 hy with rfl | hy
  · exact hlt (h1 x hx)
  · exact h.2.2 x hx y hy

theorem sorted_wsorted (l : Vec E Q B) : WSorted A (Vec.sorted A l) := by
  unfold Vec.sorted
  have hle : ∀ a b : Entry E Q B, (a.sort A b != .gt) = (Key.cmp A a.key b.key).isLE := by
    intro a b
    show (Key.cmp A a.key b.key != .gt) = _
    cases Key.cmp A a.key b.key <;> rfl
  have := List.pairwise_mergeSort (le := fun a b : Entry E Q B => a.sort A b != .gt)
    (fun a b c h1 h2 => by
      rw [hle] at h1 h2 ⊢
      exact Std.TransCmp.isLE_trans (cmp := Key.cmp A) h1 h2)
    (fun a b => by
      rw [hle, hle, Std.OrientedCmp.eq_swap (cmp := Key.cmp A)]
      cases Key.cmp A b.key a.key <;> rfl) l
  refine this.imp ?_
  intro a b hab
  rw [hle] at hab
  exact Ordering.isLE_iff_ne_gt.1 hab

end Vec
end BSQ
