import Verif.Spec.LibMap
import Verif.Props.Multimap
/-! C109: the algorithms of the standard library do not matter -/
set_option linter.unusedSectionVars false
namespace BSQ

/-! ### slices -/
section slices
variable {α : Type} {l : List α}

theorem pairwise_of_mem {r : α → α → Prop} (h : ∀ x ∈ l, ∀ y ∈ l, r x y) : l.Pairwise r := by
  induction l with
  | nil => exact .nil
  | cons x l ih =>
    exact .cons (fun y hy => h x (by simp) y (by simp [hy])) (ih fun a ha b hb => h a (by simp [ha]) b (by simp [hb]))

theorem Ordered.split {f : α → Ordering} (h : Ordered l f) :
    l = l.filter (fun x => f x == .lt) ++ (l.filter (fun x => f x == .eq) ++ l.filter (fun x => f x == .gt)) := by
  induction l with
  | nil => rfl
  | cons x l ih =>
    obtain ⟨h1, h2⟩ := List.pairwise_cons.1 h
    have hl := ih h2
    cases hx : f x with
    | lt => simpa [hx] using hl
    | eq =>
      have : l.filter (fun x => f x == .lt) = [] := by
        rw [List.filter_eq_nil_iff]
        intro y hy hc
        have := (h1 y hy).2 (by simpa using hc)
        rw [hx] at this; cases this
      rw [this] at hl
      simpa [hx, this] using hl
    | gt =>
      have e1 : l.filter (fun x => f x == .lt) = [] := by
        rw [List.filter_eq_nil_iff]
        intro y hy hc
        have := (h1 y hy).2 (by simpa using hc)
        rw [hx] at this; cases this
      have e2 : l.filter (fun x => f x == .eq) = [] := by
        rw [List.filter_eq_nil_iff]
        intro y hy hc
        have := (h1 y hy).1 hx
        simp [this] at hc
      rw [e1, e2] at hl
      simpa [hx, e1, e2] using hl

theorem partition_split {p : α → Bool} (h : l.Pairwise (fun a b => p b = true → p a = true)) :
    l = l.filter p ++ l.filter (fun x => !p x) := by
  obtain ⟨-, h1, h2⟩ := partitionPoint_spec h
  rw [← h1, ← h2, List.take_append_drop]

/-- a stable sort has one possible result -/
theorem stable_unique {c : α → α → Ordering} [Std.TransCmp c] {r r' : List α} (hp : r.Perm r')
    (h1 : r.Pairwise (fun a b => c a b ≠ .gt)) (h2 : r'.Pairwise (fun a b => c a b ≠ .gt))
    (h : ∀ x, r.filter (fun y => c x y == .eq) = r'.filter (fun y => c x y == .eq)) : r = r' := by
  induction r generalizing r' with
  | nil => exact hp.nil_eq
  | cons x r ih =>
    cases r' with
    | nil => exact absurd hp.symm.nil_eq (by simp)
    | cons y r' =>
      have hself : ∀ z, c z z = .eq := fun z => Std.ReflCmp.compare_self
      have hxy : c x y = .eq := by
        have hy : y = x ∨ y ∈ r := by simpa using hp.mem_iff.2 (List.mem_cons_self (a := y))
        have hx : x = y ∨ x ∈ r' := by simpa using hp.mem_iff.1 (List.mem_cons_self (a := x))
        rcases hy with rfl | hy
        · exact hself _
        rcases hx with rfl | hx
        · exact hself _
        have a1 := (List.pairwise_cons.1 h1).1 y hy
        have a2 := (List.pairwise_cons.1 h2).1 x hx
        cases hc : c x y with
        | eq => rfl
        | gt => exact absurd hc a1
        | lt => exact absurd (Std.OrientedCmp.gt_iff_lt.2 hc) a2
      have hh := h x
      rw [List.filter_cons_of_pos (by simp [hself]), List.filter_cons_of_pos (by simp [hxy])] at hh
      obtain ⟨rfl, -⟩ := List.cons.inj hh
      congr 1
      refine ih (List.perm_cons _ |>.1 hp) (List.pairwise_cons.1 h1).2 (List.pairwise_cons.1 h2).2 fun z => ?_
      have := h z
      by_cases hz : c z x = .eq
      · rw [List.filter_cons_of_pos (by simp [hz]), List.filter_cons_of_pos (by simp [hz])] at this
        exact (List.cons.inj this).2
      · rwa [List.filter_cons_of_neg (by simp [hz]), List.filter_cons_of_neg (by simp [hz])] at this

theorem stable_of_sublist {c : α → α → Ordering} [Std.TransCmp c] {r : List α} (hp : r.Perm l)
    (h : ∀ ys : List α, ys.Pairwise (fun a b => c a b ≠ .gt) → ys.Sublist l → ys.Sublist r) (x : α) :
    r.filter (fun y => c x y == .eq) = l.filter (fun y => c x y == .eq) := by
  have hpw : (l.filter (fun y => c x y == .eq)).Pairwise (fun a b => c a b ≠ .gt) := by
    refine pairwise_of_mem fun a ha b hb => ?_
    have ha : c x a = .eq := by simpa using (List.mem_filter.1 ha).2
    have hb : c x b = .eq := by simpa using (List.mem_filter.1 hb).2
    have := Std.TransCmp.eq_trans (Std.OrientedCmp.eq_symm ha) hb
    rw [this]; simp
  have hsub := h _ hpw List.filter_sublist
  have := hsub.filter (fun y => c x y == .eq)
  rw [List.filter_filter] at this
  simp only [Bool.and_self] at this
  exact (this.eq_of_length (hp.filter _).length_eq.symm).symm

/-- **C109** The algorithms followed in the rest of the model keep the promises, … -/
theorem C109_current : SliceLib.current.Lawful where
  found f a b c ha hb hc hne := by
    have ho : Ordered (a ++ (b ++ c)) f := by
      unfold Ordered
      rw [List.pairwise_append, List.pairwise_append]
      refine ⟨pairwise_of_mem fun x hx y hy => by simp [ha x hx, ha y hy],
        ⟨pairwise_of_mem fun x hx y hy => by simp [hb x hx, hb y hy],
          pairwise_of_mem fun x hx y hy => by simp [hc x hx, hc y hy],
          fun x hx y hy => by simp [hb x hx, hc y hy]⟩, fun x hx y hy => ?_⟩
      rcases List.mem_append.1 hy with hy | hy
      · simp [ha x hx]
      · simp [ha x hx]
    have key := binarySearchBy_spec ho
    show ∃ (b₁ : List _) (x : _) (b₂ : List _), _ ∧ binarySearchBy (a ++ (b ++ c)) f = _
    split at key
    · rename_i i hi
      obtain ⟨hil, he⟩ := key
      have hia : a.length ≤ i := by
        by_contra hlt
        rw [List.getElem_append_left (by omega)] at he
        rw [ha _ (List.getElem_mem _)] at he; cases he
      rw [List.getElem_append_right hia] at he
      have hib : i - a.length < b.length := by
        by_contra hge
        rw [List.getElem_append_right (by omega)] at he
        rw [hc _ (List.getElem_mem _)] at he; cases he
      refine ⟨b.take (i - a.length), b[i - a.length], b.drop (i - a.length + 1), by simp, ?_⟩
      rw [hi]
      simp; omega
    · rename_i i hi
      obtain ⟨hil, h2, h3⟩ := key
      obtain ⟨x, b', rfl⟩ := List.exists_cons_of_ne_nil hne
      have hx : f x = .eq := hb x (by simp)
      have hlen : a.length < (a ++ (x :: b' ++ c)).length := by simp
      have hg : (a ++ (x :: b' ++ c))[a.length] = x := by simp
      by_cases h : a.length < i
      · have := h2 _ hlen h
        rw [hg, hx] at this; cases this
      · have := h3 _ hlen (by omega)
        rw [hg, hx] at this; cases this
  absent f a c ha hc := by
    have ho : Ordered (a ++ c) f := by
      unfold Ordered
      rw [List.pairwise_append]
      exact ⟨pairwise_of_mem fun x hx y hy => by simp [ha x hx, ha y hy],
          pairwise_of_mem fun x hx y hy => by simp [hc x hx, hc y hy],
          fun x hx y hy => by simp [ha x hx, hc y hy]⟩
    have key := binarySearchBy_spec ho
    show binarySearchBy (a ++ c) f = _
    split at key
    · rename_i i hi
      obtain ⟨hil, he⟩ := key
      rcases List.mem_append.1 (List.getElem_mem hil) with h | h
      · rw [ha _ h] at he; cases he
      · rw [hc _ h] at he; cases he
    · rename_i i hi
      obtain ⟨hil, h2, h3⟩ := key
      rw [hi]
      congr 1
      rcases Nat.lt_trichotomy i a.length with h | h | h
      · have := h3 i (by simp; omega) (by omega)
        rw [List.getElem_append_left h, ha _ (List.getElem_mem _)] at this; cases this
      · exact h
      · have hl : a.length < (a ++ c).length := by omega
        have := h2 a.length hl h
        rw [List.getElem_append_right (by omega), hc _ (List.getElem_mem _)] at this; cases this
  partition p a c ha hc := by
    have h : (a ++ c).Pairwise (fun x y => p y = true → p x = true) := by
      rw [List.pairwise_append]
      exact ⟨pairwise_of_mem fun x hx y hy => by simp [ha x hx],
          pairwise_of_mem fun x hx y hy => by simp [hc y hy],
          fun x hx y hy => by simp [ha x hx]⟩
    obtain ⟨h1, h2, h3⟩ := partitionPoint_spec h
    have : (a ++ c).filter p = a := by
      rw [List.filter_append, List.filter_eq_self.2 ha, List.filter_eq_nil_iff.2 (fun x hx => by simp [hc x hx]),
        List.append_nil]
    have hlen := congrArg List.length (h2.trans this)
    rw [List.length_take] at hlen
    show partitionPoint (a ++ c) p = _
    omega
  sort c _ l := by
    have tr : ∀ a b d, (c a b != .gt) = true → (c b d != .gt) = true → (c a d != .gt) = true := by
      intro a b d hab hbd
      simp only [bne_iff_ne] at *
      exact Ordering.isLE_iff_ne_gt.1 (Std.TransCmp.isLE_trans (cmp := c)
        (Ordering.isLE_iff_ne_gt.2 hab) (Ordering.isLE_iff_ne_gt.2 hbd))
    have tot : ∀ a b, ((c a b != .gt) || (c b a != .gt)) = true := by
      intro a b
      have : c b a = (c a b).swap := Std.OrientedCmp.eq_swap
      rw [this]
      cases c a b <;> rfl
    refine ⟨List.mergeSort_perm _ _, (List.pairwise_mergeSort tr tot l).imp fun h => bne_iff_ne.1 h,
      stable_of_sublist (List.mergeSort_perm _ _) fun ys h hs => ?_⟩
    exact List.sublist_mergeSort tr tot (h.imp fun h => bne_iff_ne.2 h) hs

/-- **C109** … and so do others. -/
theorem C109_linear : SliceLib.linear.Lawful where
  found f a b c ha hb hc hne := by
    obtain ⟨x, b', rfl⟩ := List.exists_cons_of_ne_nil hne
    refine ⟨[], x, b', rfl, ?_⟩
    have hd : (a ++ (x :: b' ++ c)).dropWhile (fun x => f x == .lt) = x :: b' ++ c := by
      rw [List.dropWhile_append_of_pos fun y hy => by simp [ha y hy]]
      simp [hb x (by simp)]
    simp only [SliceLib.linear]
    rw [hd]
    simp [hb x (by simp)]
  absent f a c ha hc := by
    have hd : (a ++ c).dropWhile (fun x => f x == .lt) = c := by
      rw [List.dropWhile_append_of_pos fun y hy => by simp [ha y hy]]
      cases c with
      | nil => rfl
      | cons x c => simp [hc x (by simp)]
    simp only [SliceLib.linear]
    rw [hd]
    cases c with
    | nil => simp
    | cons x c => simp [hc x (by simp)]
  partition p a c ha hc := by
    have : (a ++ c).takeWhile p = a := by
      rw [List.takeWhile_append_of_pos ha]
      cases c with
      | nil => simp
      | cons x c => simp [hc x (by simp)]
    simp only [SliceLib.linear, this]
  sort c _ l := by
    have tr : IsTrans _ (fun a b => c a b ≠ .gt) := ⟨fun a b d hab hbd =>
      Ordering.isLE_iff_ne_gt.1 (Std.TransCmp.isLE_trans (cmp := c)
        (Ordering.isLE_iff_ne_gt.2 hab) (Ordering.isLE_iff_ne_gt.2 hbd))⟩
    have tot : Std.Total (fun a b => c a b ≠ .gt) := ⟨fun a b => by
      have : c b a = (c a b).swap := Std.OrientedCmp.eq_swap
      rw [this]
      cases c a b <;> simp⟩
    refine ⟨List.perm_insertionSort _ _, List.pairwise_insertionSort _ l,
      stable_of_sublist (List.perm_insertionSort _ _) fun ys h hs => ?_⟩
    exact List.sublist_insertionSort h hs
end slices

/-! ### maps -/
namespace LibMap
variable {E : Env} {Q : Type} [DecidableEq Q] [Ord Q] [Std.TransOrd Q] [Std.LawfulEqOrd Q] {A : Addr E}
variable {S : SliceLib} (hS : S.Lawful)
include hS

theorem partition_eq {α : Type} {l : List α} {p : α → Bool} (h : l.Pairwise (fun a b => p b = true → p a = true)) :
    S.partition l p = partitionPoint l p := by
  have e := partition_split h
  have h1 : ∀ x ∈ l.filter p, p x = true := fun x hx => (List.mem_filter.1 hx).2
  have h2 : ∀ x ∈ l.filter (fun x => !p x), p x = false := fun x hx => by simpa using (List.mem_filter.1 hx).2
  have a := hS.partition p _ _ h1 h2
  have b := C109_current.partition p _ _ h1 h2
  rw [← e] at a b
  rw [a, ← b]; rfl

section vec
variable {B : Type} {m : Vec E Q B}

theorem range_eq (h : m.Pairwise (fun a b => a.stat.cmp A b.stat ≠ .gt)) (s : StatInst E) :
    range S A m s = m.range A s := by
  have hle : ∀ {a b : StatInst E}, a.cmp A b ≠ .gt → (a.cmp A b).isLE := fun h => Ordering.isLE_iff_ne_gt.2 h
  unfold range Vec.range
  rw [partition_eq hS, partition_eq hS]
  · refine h.imp ?_
    intro a b hab hb
    simp only [bne_iff_ne] at hb ⊢
    exact Ordering.isLE_iff_ne_gt.1 (Std.TransCmp.isLE_trans (cmp := StatInst.cmp A) (hle hab) (hle hb))
  · refine h.imp ?_
    intro a b hab hb
    simp only [beq_iff_eq] at hb ⊢
    exact Std.TransCmp.lt_of_isLE_of_lt (cmp := StatInst.cmp A) (hle hab) hb

theorem slice_eq (h : m.Pairwise (fun a b => a.stat.cmp A b.stat ≠ .gt)) (s : StatInst E) :
    slice S A m s = m.slice A s := by
  unfold slice Vec.slice
  rw [range_eq hS h]

theorem sliceMut_eq (h : m.Pairwise (fun a b => a.stat.cmp A b.stat ≠ .gt)) (s : StatInst E) (f : B → Res B) :
    sliceMut S A m s f = m.sliceMut A s f := by
  unfold sliceMut Vec.sliceMut
  rw [range_eq hS h]

omit hS in
theorem sort_trans : Std.TransCmp (Entry.sort A : Entry E Q B → Entry E Q B → Ordering) where
  eq_swap {a b} := Std.OrientedCmp.eq_swap (cmp := Key.cmp A) (a := a.key) (b := b.key)
  isLE_trans {a b c} h h' := Std.TransCmp.isLE_trans (cmp := Key.cmp A) (a := a.key) (b := b.key) (c := c.key) h h'

theorem sort_eq (m : Vec E Q B) : S.sort m (Entry.sort A) = m.sorted A := by
  have := sort_trans (E := E) (Q := Q) (B := B) (A := A)
  obtain ⟨h1, h2, h3⟩ := hS.sort (Entry.sort A) m
  obtain ⟨k1, k2, k3⟩ := C109_current.sort (Entry.sort A) m
  exact stable_unique (c := Entry.sort A) (h1.trans k1.symm) h2 k2 fun x => (h3 x).trans (k3 x).symm

omit hS in
theorem key_ordered (h : (m.map Entry.key).Pairwise (fun a b => Key.cmp A a b ≠ .gt)) (q : Qualifier Q)
    (s : StatInst E) : Ordered m (fun e => e.keyCmp A s q) := by
  unfold Ordered
  rw [List.pairwise_map] at h
  refine h.imp ?_
  intro a b hab
  have hk : ∀ e : Entry E Q B, e.keyCmp A s q = Key.cmp A e.key ⟨s, q⟩ := fun _ => rfl
  simp only [hk]
  refine ⟨fun hgt => ?_, fun hlt => BRep.le_lt (A := A) hab hlt⟩
  exact Vec.KLt.gt.1 (BRep.lt_le (Vec.KLt.gt.2 hgt) hab)

/-- how a search splits a weakly sorted vector, whichever library -/
theorem search_cases (h : (m.map Entry.key).Pairwise (fun a b => Key.cmp A a b ≠ .gt)) (q : Qualifier Q)
    (s : StatInst E) :
    (∃ pre b post, m = pre ++ ⟨s, q, b⟩ :: post ∧ search S A m q s = .ok pre.length) ∨
    (∃ pre post, m = pre ++ post ∧ search S A m q s = .error pre.length ∧
      (∀ x ∈ pre, Vec.KLt A x.key ⟨s, q⟩) ∧ ∀ x ∈ post, Vec.KLt A ⟨s, q⟩ x.key) := by
  have hk : ∀ e : Entry E Q B, e.keyCmp A s q = Key.cmp A e.key ⟨s, q⟩ := fun _ => rfl
  have e := (key_ordered h q s).split
  have fl : ∀ o, ∀ x ∈ m.filter (fun x => x.keyCmp A s q == o), x.keyCmp A s q = o := fun o x hx => by
    simpa using (List.mem_filter.1 hx).2
  have h1 := fl .lt
  have h2 := fl .eq
  have h3 := fl .gt
  generalize m.filter (fun x => x.keyCmp A s q == .lt) = a at *
  generalize m.filter (fun x => x.keyCmp A s q == .eq) = b at *
  generalize m.filter (fun x => x.keyCmp A s q == .gt) = c at *
  subst e
  by_cases hb : b = []
  · subst hb
    right
    exact ⟨a, c, rfl, hS.absent _ a c h1 h3, fun x hx => h1 x hx, fun x hx => Vec.KLt.gt.2 (h3 x hx)⟩
  · left
    obtain ⟨b₁, x, b₂, rfl, hs⟩ := hS.found _ a b c h1 h2 h3 hb
    have hx := h2 x (by simp)
    rw [hk] at hx
    have hx := Std.LawfulEqCmp.eq_of_compare (cmp := Key.cmp A) hx
    obtain ⟨s', q', v⟩ := x
    simp only [Entry.key, Key.mk.injEq] at hx
    obtain ⟨rfl, rfl⟩ := hx
    exact ⟨a ++ b₁, v, b₂ ++ c, by simp, by rw [search, hs, List.length_append]⟩

/-- with distinct keys all libraries find the same -/
theorem search_eq (h : Vec.Sorted A m) (q : Qualifier Q) (s : StatInst E) : search S A m q s = m.search A q s := by
  have hw : (m.map Entry.key).Pairwise (fun a b => Key.cmp A a b ≠ .gt) := h.imp fun h => by
    unfold Vec.KLt at h; rw [h]; simp
  have hn := h.nodup
  rcases search_cases hS hw q s with ⟨pre, b, post, e, h1⟩ | ⟨pre, post, e, h1, h2, h3⟩ <;>
    rcases search_cases C109_current hw q s with ⟨pre', b', post', e', h1'⟩ | ⟨pre', post', e', h1', h2', h3'⟩ <;>
    change m.search A q s = _ at h1' <;> rw [h1, h1']
  · congr 1
    have hi : m[pre.length]? = some ⟨s, q, b⟩ := by rw [e]; simp
    have hi' : m[pre'.length]? = some ⟨s, q, b'⟩ := by rw [e']; simp
    refine (hn.getElem_inj_iff (i := pre.length) (j := pre'.length) (hi := ?_) (hj := ?_)).1 ?_
    · rw [e]; simp
    · rw [e']; simp
    · obtain ⟨_, hi⟩ := List.getElem?_eq_some_iff.1 hi
      obtain ⟨_, hi'⟩ := List.getElem?_eq_some_iff.1 hi'
      rw [List.getElem_map, List.getElem_map, hi, hi']
  · have : (⟨s, q, b⟩ : Entry E Q B) ∈ pre' ++ post' := by rw [← e', e]; simp
    rcases List.mem_append.1 this with h | h
    · exact absurd rfl (h2' _ h).ne
    · exact absurd rfl (h3' _ h).ne
  · have : (⟨s, q, b'⟩ : Entry E Q B) ∈ pre ++ post := by rw [← e, e']; simp
    rcases List.mem_append.1 this with h | h
    · exact absurd rfl (h2 _ h).ne
    · exact absurd rfl (h3 _ h).ne
  · congr 1
    rw [e] at e'
    have irr : ∀ {x : Entry E Q B}, Vec.KLt A x.key ⟨s, q⟩ → Vec.KLt A ⟨s, q⟩ x.key → False := fun a b =>
      (a.trans b).ne rfl
    rcases List.append_eq_append_iff.1 e' with ⟨d, rfl, rfl⟩ | ⟨d, rfl, rfl⟩
    · cases d with
      | nil => simp
      | cons x d => exact (irr (h2' x (by simp)) (h3 x (by simp))).elim
    · cases d with
      | nil => simp
      | cons x d => exact (irr (h2 x (by simp)) (h3' x (by simp))).elim
end vec

variable {m : StatMap E Q} {l : List (Keyed E Q)}

/-! single calls on maps with distinct keys -/
section distinct
variable (h : Vec.Sorted A m) (q : Qualifier Q) (s : StatInst E)
include h

theorem put_eq (b : Buf E) : put S A m q s b = (Vec.put A m q s b).1 := by
  unfold put Vec.put
  rw [search_eq hS h]
  cases Vec.search A m q s <;> rfl

theorem update_eq (b : Buf E) : update S A m q s b = Vec.update A m q s b := by
  unfold update Vec.update
  rw [search_eq hS h]
  rfl

theorem get_eq : get S A m q s = StatMap.get A m q s := by
  unfold get StatMap.get find Vec.find
  rw [search_eq hS h]
  rfl

theorem remove_eq : remove S A m q s = StatMap.remove A m q s := by
  unfold remove StatMap.remove pull Vec.pull
  rw [search_eq hS h]
  rfl

theorem modifyWith_eq (f : s.Val → Res s.Val) : modifyWith S A m q s f = StatMap.modifyWith A m q s f := by
  unfold modifyWith StatMap.modifyWith
  simp only [get_eq hS h, put_eq hS h, update_eq hS h]
  rfl
end distinct

section weak
variable (h : m.Pairwise (fun a b => a.stat.cmp A b.stat ≠ .gt)) (s : StatInst E)
include h

theorem iter_eq : iter S A m s = StatMap.iter A m s := by
  unfold iter StatMap.iter
  rw [slice_eq hS h]

theorem iterMut_eq (f : s.Val → Res s.Val) : iterMut S A m s f = StatMap.iterMut A m s f := by
  unfold iterMut StatMap.iterMut
  rw [sliceMut_eq hS h]

theorem removeAll_eq : removeAll S A m s = StatMap.removeAll A m s := by
  unfold removeAll StatMap.removeAll Vec.removeAll
  rw [range_eq hS h]
  simp only
  split <;> rfl

theorem queryStat_eq [QualifierFlag Q] (query : QualifierQuery Q) :
    queryStat S A m query s = StatMap.queryStat A m query s := by
  unfold queryStat StatMap.queryStat StatMap.streamStat
  cases Pair.newDefault s with
  | error e => rfl
  | ok p =>
    simp only [Res.bind_ok, slice_eq hS h]
    cases Vec.slice A m p.stat with
    | error e => rfl
    | ok l =>
      simp only [Res.bind_ok]
      cases StatMap.joinEntries p.stat.vt query l p.value <;> rfl
end weak

theorem step_eq (h : Vec.Sorted A m) (o : MapOp E Q) : step S A m o = StatMap.step A m o := by
  cases o with
  | insert q s v => simp only [step, StatMap.step, insert, StatMap.insert, put_eq hS h]
  | insertBase q s b => simp only [step, StatMap.step, insert, StatMap.insertBase, put_eq hS h]
  | modify q s o => exact modifyWith_eq hS h q s o.writeTo
  | modifyWith q s f => exact modifyWith_eq hS h q s f
  | getMut q s f =>
    simp only [step, StatMap.step, getMut, StatMap.getMut, get_eq hS h, update_eq hS h]
    rfl
  | iterMut s f => exact iterMut_eq hS h.stat_le s _
  | remove q s => simp only [step, StatMap.step, remove_eq hS h]
  | removeAll s => exact removeAll_eq hS h.stat_le s
  | clear => rfl

/-! single calls on maps with repeated keys (as in Proofs/Multimap.lean) -/

theorem key_cases (h : BRep A m l) (q : Qualifier Q) (s : StatInst E) :
    (∃ pre v post, l = pre ++ (⟨⟨s, q⟩, v⟩ : Keyed E Q) :: post ∧ get S A m q s = .ok (some v) ∧
      pull S A m q s = ((pre ++ post).map Keyed.entry, some (.val s.ty v)) ∧ Storable (E.layout s.ty) ∧
      ∀ v', update S A m q s (.val s.ty v') = (pre ++ (⟨⟨s, q⟩, v'⟩ : Keyed E Q) :: post).map Keyed.entry ∧
        put S A m q s (.val s.ty v') = (pre ++ (⟨⟨s, q⟩, v'⟩ : Keyed E Q) :: post).map Keyed.entry) ∨
    (∃ pre post, l = pre ++ post ∧ (∀ x ∈ l, x.1 ≠ ⟨s, q⟩) ∧ get S A m q s = .ok none ∧
      pull S A m q s = (m, none) ∧
      (∀ x ∈ pre, Vec.KLt A x.1 ⟨s, q⟩) ∧ (∀ x ∈ post, Vec.KLt A ⟨s, q⟩ x.1) ∧
      ∀ v', put S A m q s (.val s.ty v') = (pre ++ (⟨⟨s, q⟩, v'⟩ : Keyed E Q) :: post).map Keyed.entry) := by
  have hw : (m.map Entry.key).Pairwise (fun a b => Key.cmp A a b ≠ .gt) := by
    rw [h.eq, List.map_map]; exact h.sorted
  have hsplit : ∀ (m₁ m₂ : StatMap E Q), m = m₁ ++ m₂ →
      ∃ l₁ l₂, l = l₁ ++ l₂ ∧ m₁ = l₁.map Keyed.entry ∧ m₂ = l₂.map Keyed.entry := by
    intro m₁ m₂ e
    rw [h.eq] at e
    obtain ⟨l₁, l₂, h1, h2, h3⟩ := List.map_eq_append_iff.1 e
    exact ⟨l₁, l₂, h1, h2.symm, h3.symm⟩
  rcases search_cases hS hw q s with ⟨pre, b, post, e, hs⟩ | ⟨pre, post, e, hs, h1, h2⟩
  · left
    obtain ⟨l₁, l₂, rfl, rfl, e2⟩ := hsplit _ _ e
    cases l₂ with
    | nil => simp at e2
    | cons x l₂ =>
      obtain ⟨⟨s', q'⟩, v⟩ := x
      simp only [List.map_cons, Keyed.entry, List.cons.injEq, Entry.mk.injEq] at e2
      obtain ⟨⟨rfl, rfl, rfl⟩, rfl⟩ := e2
      have hst : Storable (E.layout s.ty) := h.storable ⟨⟨s, q⟩, v⟩ (by simp)
      refine ⟨l₁, v, l₂, rfl, ?_, ?_, hst, fun v' => ⟨?_, ?_⟩⟩
      · unfold get find
        rw [hs, e]
        simp only [List.getElem?_append_right (Nat.le_refl _), Nat.sub_self, List.getElem?_cons_zero, Option.map_some,
          StatMap.readAs, Buf.read_val hst, Res.bind_ok]
      · unfold pull
        rw [hs, e]
        simp only [List.getElem?_append_right (Nat.le_refl _), Nat.sub_self, List.getElem?_cons_zero, Option.map_some,
          List.eraseIdx_append_of_length_le (Nat.le_refl _), List.eraseIdx_cons_zero, List.map_append]
      · unfold update
        rw [hs, e]
        simp only [modify_mid]; simp [Keyed.entry]
      · unfold put
        rw [hs, e]
        simp only [modify_mid]; simp [Keyed.entry]
  · right
    obtain ⟨l₁, l₂, rfl, rfl, rfl⟩ := hsplit _ _ e
    have k1 : ∀ x ∈ l₁, Vec.KLt A x.1 ⟨s, q⟩ := fun x hx => h1 _ (List.mem_map_of_mem hx)
    have k2 : ∀ x ∈ l₂, Vec.KLt A ⟨s, q⟩ x.1 := fun x hx => h2 _ (List.mem_map_of_mem hx)
    refine ⟨l₁, l₂, rfl, ?_, ?_, ?_, k1, k2, fun v' => ?_⟩
    · intro x hx
      rcases List.mem_append.1 hx with hx | hx
      · exact (k1 x hx).ne
      · exact (k2 x hx).ne.symm
    · unfold get find; rw [hs]; rfl
    · unfold pull; rw [hs]
    · unfold put
      rw [hs, e]
      simp only [insertIdx_mid]
      simp [Keyed.entry]

theorem insert_good (h : BRep A m l) (q : Qualifier Q) (s : StatInst E) (v : s.Val) :
    BRep.Good A l (.one (.insert q s v)) (insert S A m q s v) := by
  unfold insert
  rw [Buf.from_eq]
  by_cases hs : Storable (E.layout s.ty)
  · rw [if_pos hs]
    simp only [Res.bind_ok]
    rcases key_cases hS h q s with ⟨pre, u, post, rfl, -, -, -, hp⟩ | ⟨pre, post, rfl, ha, -, -, h1, h2, hp⟩
    · rw [(hp v).2]
      exact ⟨_, h.replaced v, hs, .inl ⟨u, v, _, BRep.perm_swap, rfl, BRep.perm_swap⟩⟩
    · rw [hp v]
      exact ⟨_, h.added v h1 h2 hs, hs, .inr ⟨ha, hs, BRep.perm_swap⟩⟩
  · rw [if_neg hs]; exact ⟨hs, rfl⟩

theorem modifyWith_good (h : BRep A m l) (q : Qualifier Q) (s : StatInst E) (f : s.Val → Res s.Val) :
    BRep.Good A l (.one (.modifyWith q s f)) (modifyWith S A m q s f) := by
  unfold modifyWith
  rcases key_cases hS h q s with ⟨pre, u, post, rfl, hg, -, -, hp⟩ | ⟨pre, post, rfl, ha, hg, -, h1, h2, hp⟩
  · rw [hg]
    simp only [Res.bind_ok]
    cases hf : f u with
    | error e => exact .inl ⟨u, by simp, hf⟩
    | ok v =>
      show BRep.Good A _ _ (.ok (update S A m q s (.val s.ty v)))
      rw [(hp v).1]
      exact ⟨_, h.replaced v, .inl ⟨u, v, _, BRep.perm_swap, hf, BRep.perm_swap⟩⟩
  · rw [hg]
    simp only [Res.bind_ok]
    cases hf : f s.sv.default with
    | error e => exact .inr ⟨ha, .inl hf⟩
    | ok v =>
      simp only [Res.bind_ok, Buf.from_eq]
      by_cases hs : Storable (E.layout s.ty)
      · rw [if_pos hs]
        show BRep.Good A _ _ (.ok (put S A m q s (.val s.ty v)))
        rw [hp v]
        exact ⟨_, h.added v h1 h2 hs, .inr ⟨v, hf, ha, hs, BRep.perm_swap⟩⟩
      · rw [if_neg hs]; exact .inr ⟨ha, .inr ⟨by rw [hf]; rfl, hs, rfl⟩⟩

theorem getMut_good (h : BRep A m l) (q : Qualifier Q) (s : StatInst E) (f : s.Val → Res s.Val) :
    BRep.Good A l (.one (.getMut q s f)) (getMut S A m q s f) := by
  unfold getMut
  rcases key_cases hS h q s with ⟨pre, u, post, rfl, hg, -, -, hp⟩ | ⟨pre, post, rfl, ha, hg, -, h1, h2, hp⟩
  · rw [hg]
    simp only [Res.bind_ok]
    cases hf : f u with
    | error e => exact ⟨u, by simp, hf⟩
    | ok v =>
      show BRep.Good A _ _ (.ok (update S A m q s (.val s.ty v)))
      rw [(hp v).1]
      exact ⟨_, h.replaced v, .inl ⟨u, v, _, BRep.perm_swap, hf, BRep.perm_swap⟩⟩
  · rw [hg]; exact ⟨_, h, .inr ⟨ha, rfl⟩⟩

theorem remove_good (h : BRep A m l) (q : Qualifier Q) (s : StatInst E) :
    BRep.Good A l (.one (.remove q s)) (remove S A m q s >>= fun r => .ok r.1) := by
  unfold remove
  rcases key_cases hS h q s with ⟨pre, u, post, rfl, -, hp, hs, -⟩ | ⟨pre, post, rfl, ha, -, hp, -⟩
  · rw [hp]
    simp only [StatMap.readAs, Buf.read_val hs, Res.bind_ok]
    exact ⟨_, h.removed, .inl ⟨u, BRep.perm_swap⟩⟩
  · rw [hp]; exact ⟨_, h, .inr ⟨ha, rfl⟩⟩

theorem extend_eq (m : StatMap E Q) (T : E.S) (its : List (Qualifier Q × Nat × E.El (E.valTy T))) :
    extend S A m T its = StatMap.extend A m T its := by
  unfold extend StatMap.extend
  simp only [sort_eq hS]

theorem good (h : BRep A m l) (o : MultiOp E Q) : BRep.Good A l o (multiStep S A m o) := by
  cases o with
  | extend T its => simp only [multiStep, extend_eq hS]; exact h.extend T its
  | collect T its => simp only [multiStep, extend_eq hS]; exact BRep.collect l T its
  | one o =>
    cases o with
    | insert q s v => exact insert_good hS h q s v
    | insertBase q s b => exact insert_good hS h q s (s.sv.fromBase b)
    | modify q s o => exact modifyWith_good hS h q s o.writeTo
    | modifyWith q s f => exact modifyWith_good hS h q s f
    | getMut q s f => exact getMut_good hS h q s f
    | iterMut s f => simp only [multiStep, step, iterMut_eq hS h.stat_le]; exact h.iterMut s f
    | remove q s => exact remove_good hS h q s
    | removeAll s => simp only [multiStep, step, removeAll_eq hS h.stat_le]; exact h.removeAll s
    | clear => exact h.clear

theorem goodRun (h : BRep A m l) (os : List (MultiOp E Q)) :
    match multiRun S A m os with
    | .ok m' => ∃ l', BRep A m' l' ∧ Bag.Run (↑l) os (↑l')
    | .error e => ∃ pre o post b, os = pre ++ o :: post ∧ Bag.Run (↑l) pre b ∧ Bag.MultiFails b e o := by
  induction os generalizing m l with
  | nil => exact ⟨l, h, .nil _⟩
  | cons o os ih =>
    have hs := good hS h o
    unfold multiRun
    cases hr : multiStep S A m o with
    | error e => rw [hr] at hs; exact ⟨[], o, os, _, rfl, .nil _, hs⟩
    | ok m' =>
      rw [hr] at hs
      obtain ⟨l', h1, h2⟩ := hs
      have := ih h1
      simp only [Res.bind_ok]
      cases hr' : multiRun S A m' os with
      | error e =>
        rw [hr'] at this
        obtain ⟨pre, o', post, b, rfl, h3, h4⟩ := this
        exact ⟨o :: pre, o', post, b, rfl, .cons h2 h3, h4⟩
      | ok m'' =>
        rw [hr'] at this
        obtain ⟨l'', h3, h4⟩ := this
        exact ⟨l'', h3, .cons h2 h4⟩

theorem goodSeen (h : BRep A m l) : Seen S A m (↑l) where
  len := h.seen.len
  isEmpty := h.seen.isEmpty
  get_absent q s ha := by
    rcases key_cases hS h q s with ⟨pre, v, post, e, -⟩ | ⟨_, _, _, _, hg, -⟩
    · exact absurd rfl (ha ⟨⟨s, q⟩, v⟩ (by rw [e]; simp))
    · exact hg
  get_some q s ha := by
    rcases key_cases hS h q s with ⟨pre, v, post, e, hg, -⟩ | ⟨_, _, _, hno, -⟩
    · exact ⟨v, by rw [e]; simp, hg⟩
    · exact absurd (fun x hx => hno x hx) ha
  iter s := by
    rw [iter_eq hS h.stat_le]
    exact h.seen.iter s
end LibMap

variable {E : Env} {Q : Type} [BitFlags Q] [FlagSet Q] [Ord Q] [Std.TransOrd Q] [Std.LawfulEqOrd Q]
  (A : Addr E) (S : SliceLib) (hS : S.Lawful)
include hS

/-- **C109** Whichever algorithms the standard library searches and sorts with, if they keep its promises: every history
of keyed calls gives the same map, and all reading methods give the same answers. -/
theorem C109_history (h : List (MapOp E Q)) :
    LibMap.run S A [] h = StatMap.run A h ∧
    ∀ m, StatMap.run A h = .ok m → ∀ (q : Qualifier Q) (query : QualifierQuery Q) (s : StatInst E),
      LibMap.get S A m q s = StatMap.get A m q s ∧
      LibMap.getEvaled S A m q s = StatMap.getEvaled A m q s ∧
      LibMap.remove S A m q s = StatMap.remove A m q s ∧
      LibMap.iter S A m s = StatMap.iter A m s ∧
      LibMap.queryStat S A m query s = StatMap.queryStat A m query s ∧
      LibMap.evalStat S A m query s = StatMap.evalStat A m query s := by
  have key : ∀ (h : List (MapOp E Q)) (m : StatMap E Q) (a : PMap E Q), Rep A m a →
      LibMap.run S A m h = StatMap.runFrom A m h := by
    intro h
    induction h with
    | nil => intro m a _; rfl
    | cons o h ih =>
      intro m a r
      have hs := r.step o
      simp only [LibMap.run, StatMap.runFrom, LibMap.step_eq hS r.sorted]
      cases ho : StatMap.step A m o with
      | error e => rfl
      | ok m' =>
        rw [ho] at hs
        cases ha : a.step o with
        | error e => rw [ha] at hs; exact hs.elim
        | ok a' => rw [ha] at hs; exact ih m' a' hs
  refine ⟨key h [] _ Rep.empty, fun m hm q query s => ?_⟩
  obtain ⟨a, -, r⟩ := reachRep A hm
  have hg := LibMap.get_eq hS r.sorted q s
  have hq := LibMap.queryStat_eq hS r.sorted.stat_le s query
  refine ⟨hg, ?_, LibMap.remove_eq hS r.sorted q s, LibMap.iter_eq hS r.sorted.stat_le s, hq, ?_⟩
  · unfold LibMap.getEvaled StatMap.getEvaled; rw [hg]
  · unfold LibMap.evalStat StatMap.evalStat; rw [hq]

/-- **C109** `extend` and `from_iter` give the same vector, on maps in any order and with repeated keys. -/
theorem C109_extend (m : StatMap E Q) (T : E.S) (items : List (Qualifier Q × Nat × E.El (E.valTy T))) :
    LibMap.extend S A m T items = StatMap.extend A m T items ∧
    LibMap.extend S A [] T items = StatMap.fromIter A T items := by
  unfold LibMap.extend StatMap.extend StatMap.fromIter
  simp only [LibMap.sort_eq hS, List.nil_append, and_self]

/-- **C109** With repeated keys, which of the values under a key a call acts on is left open by the documentation.
Whichever algorithms are used, the map is a multimap as in C74. -/
theorem C109_multimap (h : List (MultiOp E Q)) :
    match LibMap.multiRun S A [] h with
    | .ok m => ∃ b, Bag.Run 0 h b ∧ LibMap.Seen S A m b
    | .error e => ∃ pre o post b, h = pre ++ o :: post ∧ Bag.Run 0 pre b ∧ Bag.MultiFails b e o := by
  have := LibMap.goodRun hS (BRep.nil (E := E) (Q := Q) (A := A)) h
  cases hr : LibMap.multiRun S A [] h with
  | error e => rw [hr] at this; exact this
  | ok m =>
    rw [hr] at this
    obtain ⟨l, h1, h2⟩ := this
    exact ⟨_, h2, LibMap.goodSeen hS h1⟩

omit hS in
/-- **C109** It does matter which one is found: of three values under one key the two libraries give different ones. -/
theorem C109_repeated_differ : ∃ m : StatMap demo (BitVec 8),
    StatMap.fromIter demoAddr (E := demo) true
      [(⟨0, 0⟩, (1 : Nat), ⟨3, 0, 9, 1⟩), (⟨0, 0⟩, (1 : Nat), ⟨4, 0, 9, 1⟩), (⟨0, 0⟩, (1 : Nat), ⟨5, 0, 9, 1⟩)] = .ok m ∧
    LibMap.get .linear demoAddr m ⟨0, 0⟩ (demoInt 1) ≠ LibMap.get .current demoAddr m ⟨0, 0⟩ (demoInt 1) := by
  refine ⟨_, rfl, ?_⟩
  rw [Vec.sorted, List.mergeSort_of_pairwise (by decide)]
  decide +kernel

omit hS in
/-- the hypotheses of C109 hold of a library that differs from the current one, so that its history is the same -/
example : LibMap.run .linear demoAddr [] [.insert (⟨1, 0⟩ : Qualifier (BitVec 8)) (demoInt 1) ⟨3, 0, 9, 1⟩,
      .insert ⟨0, 0⟩ (demoInt 1) ⟨4, 0, 9, 1⟩, .remove ⟨1, 0⟩ (demoInt 1)] =
    StatMap.run demoAddr [.insert ⟨1, 0⟩ (demoInt 1) ⟨3, 0, 9, 1⟩, .insert ⟨0, 0⟩ (demoInt 1) ⟨4, 0, 9, 1⟩,
      .remove ⟨1, 0⟩ (demoInt 1)] :=
  (C109_history demoAddr .linear C109_linear _).1

omit hS in
example : (StatMap.run demoAddr [.insert (⟨1, 0⟩ : Qualifier (BitVec 8)) (demoInt 1) ⟨3, 0, 9, 1⟩,
      .insert ⟨0, 0⟩ (demoInt 1) ⟨4, 0, 9, 1⟩, .remove ⟨1, 0⟩ (demoInt 1)]).isOk = true := by decide +kernel

end BSQ
