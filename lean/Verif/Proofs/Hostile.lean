import Verif.Spec.Hostile
import Verif.Proofs.WildOrd
import Verif.Proofs.Ledger
import Mathlib.Data.List.Induction
/-! Helper lemmas: user code that does whatever it likes. -/
namespace BSQ

theorem bsLoopA_loose (f : Nat → Nat → Option Ordering) (lo hi : Nat → Prop) (n : Nat)
    (h1 : ∀ k i, i < n → f k i = some .gt → hi i) (h2 : ∀ k i c, i < n → f k i = some c → c ≠ .gt → lo i)
    (up : ∀ i j, i ≤ j → j < n → hi i → hi j) (fuel k base size : Nat) (hs : 1 ≤ size) (hf : size ≤ fuel + 1)
    (hn : base + size ≤ n) (b k' : Nat) (h : bsLoopA f fuel k base size = some (b, k')) :
    base ≤ b ∧ b < base + size ∧ (b = base ∨ lo b) ∧ ∀ j, b < j → j < base + size → hi j := by
  induction fuel generalizing k base size with
  | zero =>
    cases h
    exact ⟨Nat.le_refl _, by omega, .inl rfl, fun j _ _ => by omega⟩
  | succ m ih =>
    rw [bsLoopA] at h
    split at h
    · rename_i hsz
      simp only at h
      cases hc : f k (base + size / 2) with
      | none => rw [hc] at h; cases h
      | some c =>
        rw [hc] at h
        simp only at h
        by_cases hg : c = .gt
        · rw [if_pos hg] at h
          obtain ⟨a1, a2, a3, a4⟩ := ih _ _ _ (by omega) (by omega) (by omega) h
          refine ⟨a1, by omega, a3, fun j hj hj2 => ?_⟩
          by_cases hjm : j < base + (size - size / 2)
          · exact a4 j hj hjm
          · exact up (base + size / 2) j (by omega) (by omega) (h1 _ _ (by omega) (hg ▸ hc))
        · rw [if_neg hg] at h
          obtain ⟨a1, a2, a3, a4⟩ := ih _ _ _ (by omega) (by omega) (by omega) h
          refine ⟨by omega, by omega, .inr ?_, fun j hj hj2 => a4 j hj (by omega)⟩
          rcases a3 with rfl | a3
          · exact h2 _ _ c (by omega) hc hg
          · exact a3
    · cases h
      exact ⟨Nat.le_refl _, by omega, .inl rfl, fun j _ _ => by omega⟩

theorem bsLoopA_right {f : Nat → Nat → Option Ordering} {g : Nat → Ordering} (h : ∀ k i, f k i = some (g i))
    (fuel k base size : Nat) : ∃ k', bsLoopA f fuel k base size = some (bsLoop g fuel base size, k') := by
  induction fuel generalizing k base size with
  | zero => exact ⟨k, rfl⟩
  | succ m ih =>
    rw [bsLoopA, bsLoop]
    split
    · simp only [h]
      exact ih _ _ _
    · exact ⟨k, rfl⟩

variable {E : Env} {Q : Type} {A : Addr E}

namespace Vec
variable {B : Type} {m : Vec E Q B} {s : StatInst E} {a : Answers Q}

theorem probe_lt {n i : Nat} (hi : i < m.length) {c : Ordering} (h : m.probe A s a n i = some c) :
    (c = .gt → m[i].stat.cmp A s ≠ .lt) ∧ (c ≠ .gt → m[i].stat.cmp A s ≠ .gt) ∧ (c = .eq → m[i].stat = s) := by
  unfold probe at h
  simp only [List.getElem?_eq_getElem hi, Option.elim_some] at h
  cases hc : m[i].stat.cmp A s with
  | eq => exact ⟨fun _ => by simp, fun _ => by simp, fun _ => Std.LawfulEqCmp.eq_of_compare (cmp := StatInst.cmp A) hc⟩
  | lt => rw [hc] at h; cases h; simp
  | gt => rw [hc] at h; cases h; simp

theorem searchA_loose (lo hi : Entry E Q B → Prop) (h1 : ∀ x ∈ m, x.stat.cmp A s ≠ .lt → hi x)
    (h2 : ∀ x ∈ m, x.stat.cmp A s ≠ .gt → lo x)
    (hp : m.Pairwise (fun a b => (hi a → hi b) ∧ (lo b → lo a))) {r : Except Nat Nat}
    (h : m.searchA A s a = some r) :
    match r with
    | .ok i => ∃ hi : i < m.length, m[i].stat = s
    | .error i => i ≤ m.length ∧ (∀ j (hj : j < m.length), j < i → lo m[j]) ∧
        (∀ j (hj : j < m.length), i ≤ j → hi m[j]) := by
  have hg : ∀ {i j} (hij : i ≤ j) (hj : j < m.length), (hi (m[i]'(by omega)) → hi m[j]) ∧
      (lo m[j] → lo (m[i]'(by omega))) := by
    intro i j hij hj
    rcases Nat.lt_or_eq_of_le hij with hlt | rfl
    · exact List.pairwise_iff_getElem.1 hp i j (by omega) hj hlt
    · exact ⟨id, id⟩
  unfold searchA at h
  by_cases h0 : m.length = 0
  · simp only [h0, if_true] at h
    cases h
    exact ⟨by omega, fun j hj => by omega, fun j hj => by omega⟩
  simp only [h0, if_false] at h
  cases hl : bsLoopA (m.probe A s a) m.length 0 0 m.length with
  | none => rw [hl] at h; cases h
  | some x =>
    obtain ⟨b, k⟩ := x
    obtain ⟨-, a2, a3, a4⟩ := bsLoopA_loose (m.probe A s a) (fun i => ∀ h : i < m.length, lo m[i])
      (fun i => ∀ h : i < m.length, hi m[i]) m.length
      (fun k i hi hc _ => h1 _ (List.getElem_mem _) ((probe_lt hi hc).1 rfl))
      (fun k i c hi hc hne _ => h2 _ (List.getElem_mem _) ((probe_lt hi hc).2.1 hne))
      (fun i j hij hj h _ => (hg hij hj).1 (h (by omega))) m.length 0 0 m.length (by omega) (by omega) (by omega) b k hl
    have hb : b < m.length := by omega
    rw [hl] at h
    simp only at h
    cases hc : m.probe A s a k b with
    | none => rw [hc] at h; cases h
    | some c =>
      have hpr := probe_lt hb hc
      rw [hc] at h
      cases c with
      | eq => cases h; exact ⟨hb, hpr.2.2 rfl⟩
      | lt =>
        cases h
        refine ⟨by omega, fun j hj hjb => ?_, fun j hj hjb => a4 j (by omega) (by omega) hj⟩
        exact (hg (Nat.lt_succ_iff.1 hjb) hb).2 (h2 _ (List.getElem_mem _) (hpr.2.1 (by simp)))
      | gt =>
        cases h
        refine ⟨by omega, fun j hj hjb => ?_, fun j hj hjb => ?_⟩
        · rcases a3 with rfl | a3
          · omega
          · exact (hg (Nat.le_of_lt hjb) hb).2 (a3 hb)
        · exact (hg hjb hj).1 (h1 _ (List.getElem_mem _) (hpr.1 rfl))

theorem searchA_ok {i : Nat} (h : m.searchA A s a = some (.ok i)) :
    ∃ pre e post, m = pre ++ e :: post ∧ pre.length = i ∧ e.stat = s := by
  obtain ⟨hl, hk⟩ := searchA_loose (fun _ => True) (fun _ => True) (fun _ _ _ => trivial) (fun _ _ _ => trivial)
    (List.pairwise_of_forall fun _ _ => ⟨id, id⟩) h
  refine ⟨m.take i, m[i], m.drop (i + 1), ?_, ?_, hk⟩
  · rw [← List.drop_eq_getElem_cons, List.take_append_drop]
  · simp only [List.length_take]; omega

theorem searchA_error {i : Nat} (h : m.searchA A s a = some (.error i)) :
    ∃ pre post, m = pre ++ post ∧ pre.length = i ∧ (m.Pairwise (fun a b => a.stat.cmp A b.stat ≠ .gt) →
      (∀ x ∈ pre, x.stat.cmp A s ≠ .gt) ∧ ∀ x ∈ post, s.cmp A x.stat ≠ .gt) := by
  have hl : i ≤ m.length := (searchA_loose (fun _ => True) (fun _ => True) (fun _ _ _ => trivial)
    (fun _ _ _ => trivial) (List.pairwise_of_forall fun _ _ => ⟨id, id⟩) h).1
  refine ⟨m.take i, m.drop i, (List.take_append_drop _ _).symm, by simp only [List.length_take]; omega, fun hp => ?_⟩
  obtain ⟨-, h1, h2⟩ := searchA_loose (fun x => x.stat.cmp A s ≠ .gt) (fun x => s.cmp A x.stat ≠ .gt)
    (fun _ _ h => GRep.ge_of h) (fun _ _ h => h)
    (hp.imp fun h => ⟨fun h' => GRep.le_trans h' h, fun h' => GRep.le_trans h h'⟩) h
  constructor
  · intro x hx
    obtain ⟨j, hj, rfl⟩ := List.mem_iff_getElem.1 hx
    simp only [List.length_take] at hj
    rw [List.getElem_take]
    exact h1 j (by omega) (by omega)
  · intro x hx
    obtain ⟨j, hj, rfl⟩ := List.mem_iff_getElem.1 hx
    simp only [List.length_drop] at hj
    rw [List.getElem_drop]
    exact h2 _ (by omega) (by omega)

/-- comparisons that answer like an `Ord` -/
theorem searchA_right [Ord Q] (q : Qualifier Q) :
    m.searchA A s (fun _ x => some (x.cmp q)) = some (m.search A q s) := by
  have hp : ∀ n i, m.probe A s (fun _ x => some (x.cmp q)) n i =
      some ((m[i]?).elim .gt (fun e => e.keyCmp A s q)) := by
    intro n i
    unfold probe
    cases m[i]? with
    | none => rfl
    | some e =>
      simp only [Option.elim_some, Entry.keyCmp]
      cases e.stat.cmp A s <;> rfl
  unfold searchA search binarySearchBy
  by_cases h0 : m.length = 0
  · simp [h0]
  · obtain ⟨k, hk⟩ := bsLoopA_right hp m.length 0 0 m.length
    simp only [h0, if_false, hk, hp]
    cases (m[bsLoop (fun i => (m[i]?).elim .gt (fun e => e.keyCmp A s q)) m.length 0 m.length]?).elim Ordering.gt
      (fun e => e.keyCmp A s q) <;> rfl

end Vec

/-! ### the books -/

/-- `f` keeps the books of a vector, losing at most `n` values -/
def XKeeps (n : Nat) (f : Heap E.U → LMap E Q → Heap E.U × LMap E Q) (h : Heap E.U) (m : LMap E Q) : Prop :=
  ∀ R, Books h (LMap.cells m ++ R) →
    ∃ lost : List (Cell × E.U), lost.length ≤ n ∧ Books (f h m).1 (LMap.cells (f h m).2 ++ (lost ++ R))

namespace XKeeps
variable {h : Heap E.U} {m : LMap E Q} {s : StatInst E} {a : Answers Q}

theorem place_error {q : Qualifier Q} {x : Cell} {i : Nat} {R : List (Cell × E.U)}
    (hs : m.searchA A s a = some (.error i)) (b : Books h ((x, s.ty) :: (LMap.cells m ++ R))) :
    Books h (LMap.cells (LMap.place m q s x (.error i)) ++ R) := by
  obtain ⟨pre, post, rfl, rfl, -⟩ := Vec.searchA_error hs
  refine b.perm ?_
  simp only [LMap.place]
  rw [← List.cons_append]
  refine List.Perm.append_right _ ?_
  exact ((List.perm_insertIdx (i := pre.length) ⟨s, q, x⟩ (pre ++ post) (by simp)).map (fun e => (e.buf, e.stat.ty))).symm

theorem place_ok {q : Qualifier Q} {x : Cell} {i : Nat} {R : List (Cell × E.U)}
    (hs : m.searchA A s a = some (.ok i)) (b : Books h ((x, s.ty) :: (LMap.cells m ++ R))) :
    ∃ y, Books h (LMap.cells (LMap.place m q s x (.ok i)) ++ ([y] ++ R)) := by
  obtain ⟨pre, e, post, rfl, rfl, rfl⟩ := Vec.searchA_ok hs
  refine ⟨(e.buf, e.stat.ty), b.perm ?_⟩
  simp only [LMap.place]
  rw [show (pre ++ e :: post).modify pre.length (fun e => { e with buf := x }) =
    pre ++ { e with buf := x } :: post by
      rw [List.modify_eq_take_cons_drop (h := by simp)]; simp]
  simp only [LMap.cells, List.map_append, List.map_cons]
  rw [List.perm_iff_count]
  intro a
  simp only [List.count_cons, List.count_append, List.count_nil]
  omega

theorem insert (q : Qualifier Q) (s : StatInst E) (a : Answers Q) :
    XKeeps 1 (fun h m => LMap.insertA A h m q s a) h m := by
  intro R b
  simp only [LMap.insertA]
  rcases b.alloc s.ty with ⟨_, h', x, h2, h3⟩ | ⟨_, h', h2, h3⟩
  · simp only [h2]
    cases hs : m.searchA A s a with
    | none =>
      refine ⟨[(x, s.ty)], by simp, h3.perm ?_⟩
      simp only [List.cons_append, List.nil_append]
      exact List.perm_middle.symm
    | some r =>
      cases r with
      | ok i =>
        obtain ⟨y, hy⟩ := place_ok (q := q) hs h3
        exact ⟨[y], by simp, hy⟩
      | error i => exact ⟨[], by simp, place_error hs h3⟩
  · simp only [h2]
    exact ⟨[], by simp, h3⟩

theorem used {i : Nat} (hs : m.searchA A s a = some (.ok i)) {R : List (Cell × E.U)}
    (b : Books h (LMap.cells m ++ R)) : ∃ e, m[i]? = some e ∧ Books (h.use e.buf s.ty) (LMap.cells m ++ R) := by
  obtain ⟨pre, e, post, rfl, rfl, rfl⟩ := Vec.searchA_ok hs
  exact ⟨e, by simp, b.use (by simp [LMap.cells])⟩

theorem get (s : StatInst E) (a : Answers Q) : XKeeps 0 (fun h m => LMap.getA A h m s a) h m := by
  intro R b
  simp only [LMap.getA]
  rcases hs : m.searchA A s a with _ | i | i
  · exact ⟨[], by simp, b⟩
  · exact ⟨[], by simp, b⟩
  · obtain ⟨e, h1, h2⟩ := used hs b
    simp only [h1]
    exact ⟨[], by simp, h2⟩

theorem modify (q : Qualifier Q) (s : StatInst E) (a : Answers Q) (fails : Bool) :
    XKeeps 0 (fun h m => LMap.modifyA A h m q s a fails) h m := by
  intro R b
  simp only [LMap.modifyA]
  rcases hs : m.searchA A s a with _ | i | i
  · exact ⟨[], by simp, b⟩
  · cases fails with
    | true => exact ⟨[], by simp, (b.create s.ty).drop⟩
    | false =>
      simp only [Bool.false_eq_true, if_false]
      rcases b.alloc s.ty with ⟨_, h', x, h2, h3⟩ | ⟨_, h', h2, h3⟩
      · simp only [h2]
        exact ⟨[], by simp, place_error hs h3⟩
      · simp only [h2]
        exact ⟨[], by simp, h3⟩
  · obtain ⟨e, h1, h2⟩ := used hs b
    simp only [h1]
    exact ⟨[], by simp, h2⟩

theorem remove (s : StatInst E) (a : Answers Q) : XKeeps 0 (fun h m => LMap.removeA A h m s a) h m := by
  intro R b
  simp only [LMap.removeA]
  rcases hs : m.searchA A s a with _ | i | i
  · exact ⟨[], by simp, b⟩
  · exact ⟨[], by simp, b⟩
  · obtain ⟨pre, e, post, rfl, rfl, rfl⟩ := Vec.searchA_ok hs
    simp only [List.getElem?_append_right (Nat.le_refl _), Nat.sub_self, List.getElem?_cons_zero]
    refine ⟨[], by simp, Books.move (b.perm ?_)⟩
    rw [List.eraseIdx_append_of_length_le (Nat.le_refl _)]
    simp only [LMap.cells, List.map_append, List.map_cons, List.append_assoc, List.cons_append, List.nil_append,
      Nat.sub_self, List.eraseIdx_cons_zero]
    exact List.perm_middle

theorem removeAll (s : StatInst E) : XKeeps 0 (fun h (m : LMap E Q) => LMap.removeAll A h m s) h m := by
  intro R b
  simp only [LMap.removeAll, Vec.removeAll]
  split
  · rename_i hr
    split at hr
    · cases hr
    · rename_i hlt
      cases hr
      refine ⟨[], by simp, Books.dropAll (b.perm ?_)⟩
      simp only [List.nil_append, ← List.append_assoc]
      refine List.Perm.append_right _ ?_
      simp only [LMap.cells, ← List.map_append]
      refine List.Perm.map _ ?_
      generalize (Vec.range A m s).1 = a at *
      generalize (Vec.range A m s).2 = c at *
      have h1 : m = m.take a ++ (m.take c).drop a ++ m.drop c := by
        rw [show m.take a = (m.take c).take a by rw [List.take_take]; congr 1; omega, List.take_append_drop,
          List.take_append_drop]
      conv_lhs => rw [h1]
      rw [← List.append_assoc]
      exact List.perm_append_comm.append_right _
  · exact ⟨[], by simp, b⟩

theorem clear : XKeeps 0 (LMap.clear (Q := Q)) h m := fun _ b => ⟨[], by simp, Books.dropAll b⟩

theorem extend (T : E.S) (items : List (Qualifier Q × Nat)) (fails : Bool) (σ : Shuffle (Entry E Q Cell)) :
    XKeeps 0 (fun h m => LMap.extendA h m T items fails σ) h m := by
  intro R b
  simp only [LMap.extendA]
  rcases b.entries T false items with ⟨_, h', l', h1, h2, h3⟩ | ⟨hs, h', h1, h2⟩
  · simp only [h1]
    have hp : (if fails then m ++ l' else σ.apply (m ++ l')).Perm (m ++ l') := by
      cases fails with
      | true => exact List.Perm.refl _
      | false => exact σ.perm _
    refine ⟨[], by simp, h2.perm ?_⟩
    simp only [List.nil_append, ← List.append_assoc]
    refine List.Perm.append_right _ (List.perm_append_comm.trans ?_)
    unfold LMap.cells
    rw [← List.map_append]
    exact (hp.map _).symm
  · simp only [h1]
    exact ⟨[], by simp, h2⟩

theorem slice_eq (hm : StatsInOrder A m) (s : StatInst E) :
    m.slice A s = .ok (m.filter (fun e => decide (e.stat = s))) := by
  let _ : Ord Q := ⟨fun _ _ => .eq⟩
  exact Vec.slice_le hm s

theorem iter (hm : StatsInOrder A m) (s : StatInst E) (k : Option Nat) :
    XKeeps 0 (fun h (m : LMap E Q) => LMap.iterA A h m s k) h m := by
  intro R b
  simp only [LMap.iterA, slice_eq hm]
  refine ⟨[], by simp, b.useAll fun e he => List.mem_append_left _ ?_⟩
  have he' : e ∈ m.filter (fun e => decide (e.stat = s)) := by
    cases k with
    | none => exact he
    | some k => exact List.mem_of_mem_take he
  obtain ⟨h1, h2⟩ := List.mem_filter.1 he'
  rw [← of_decide_eq_true h2]
  exact List.mem_map.2 ⟨e, h1, rfl⟩

theorem visitAll {O : List (Cell × E.U)} {l : LMap E Q} {x : Cell} (b : Books h O) (hx : (x, s.ty) ∈ O)
    (hl : ∀ e ∈ l, (e.buf, s.ty) ∈ O) (v : Visits Q) (n j : Nat) :
    Books (LMap.visitAll s x v n j h l).1 O ∧ ((LMap.visitAll s x v n j h l).2 = false →
      ∃ n j q, v n j q = .joinPanics ∨ v n j q = .panics) := by
  induction l generalizing h n j with
  | nil => exact ⟨b, fun h => by cases h⟩
  | cons e l ih =>
    have hl' : ∀ e ∈ l, (e.buf, s.ty) ∈ O := fun e he => hl e (List.mem_cons_of_mem _ he)
    have b' := (b.use hx).use (hl e List.mem_cons_self)
    unfold LMap.visitAll
    cases hv : v n j e.qual with
    | skip => exact ih b hl' _ _
    | join => exact ih b' hl' _ _
    | joinPanics => exact ⟨b', fun _ => ⟨n, j, e.qual, .inl hv⟩⟩
    | panics => exact ⟨b, fun _ => ⟨n, j, e.qual, .inr hv⟩⟩

open Classical in
theorem query (hm : StatsInOrder A m) (s : StatInst E) (v : Visits Q) :
    XKeeps (if ∃ n j q, v n j q = .joinPanics ∨ v n j q = .panics then 1 else 0)
      (fun h (m : LMap E Q) => LMap.queryA A h m s v) h m := by
  intro R b
  simp only [LMap.queryA, slice_eq hm]
  rcases b.alloc s.ty with ⟨_, h', x, h2, h3⟩ | ⟨_, h', h2, h3⟩
  · simp only [h2]
    have hv := visitAll (l := m.filter (fun e => decide (e.stat = s))) (s := s) h3 List.mem_cons_self
      (fun e he => by
        obtain ⟨h4, h5⟩ := List.mem_filter.1 he
        rw [← of_decide_eq_true h5]
        exact List.mem_cons_of_mem _ (List.mem_append_left _ (List.mem_map.2 ⟨e, h4, rfl⟩))) v 0 0
    generalize LMap.visitAll s x v 0 0 h' (m.filter (fun e => decide (e.stat = s))) = r at hv
    obtain ⟨h5, ok⟩ := r
    cases ok with
    | true => exact ⟨[], by simp, Books.move hv.1⟩
    | false =>
      refine ⟨[(x, s.ty)], by rw [if_pos (hv.2 rfl)]; simp, hv.1.perm ?_⟩
      simp only [List.cons_append, List.nil_append]
      exact List.perm_middle.symm
  · simp only [h2]
    exact ⟨[], by simp, h3⟩

theorem mono {n k : Nat} (hk : n ≤ k) {f : Heap E.U → LMap E Q → Heap E.U × LMap E Q} (hf : XKeeps n f h m) :
    XKeeps k f h m := fun R b => by
  obtain ⟨lost, h1, h2⟩ := hf R b
  exact ⟨lost, Nat.le_trans h1 hk, h2⟩

end XKeeps

theorem Books.cloneAllA {h : Heap E.U} {O : List (Cell × E.U)} (l : LMap E Q) (b : Books h O)
    (hl : ∀ e ∈ l, (e.buf, e.stat.ty) ∈ O) (failsAt : Option (Nat × Bool)) :
    Books (LMap.cloneAllA h l failsAt).1 (LMap.cells (LMap.cloneAllA h l failsAt).2.1 ++ O) ∧
    ((LMap.cloneAllA h l failsAt).2.2 = true → (LMap.cloneAllA h l failsAt).2.1.map Entry.stat = l.map Entry.stat) := by
  induction l generalizing h O failsAt with
  | nil => exact ⟨b, fun _ => rfl⟩
  | cons e l ih =>
    have hu := b.use (hl e List.mem_cons_self)
    have go := ih (O := (h.next, e.stat.ty) :: O) (hu.create e.stat.ty)
      (fun x hx => List.mem_cons_of_mem _ (hl x (List.mem_cons_of_mem _ hx))) (failsAt.map fun x => (x.1 - 1, x.2))
    unfold LMap.cloneAllA
    split
    · rename_i value
      refine ⟨?_, fun h => by cases h⟩
      cases value with
      | true => exact hu
      | false => exact b
    · refine ⟨go.1.perm ?_, fun h => ?_⟩
      · simp only [LMap.cells, List.map_cons, List.cons_append]
        exact List.perm_middle
      · simp only [List.map_cons]
        rw [go.2 h]

/-- the books of a program, having lost at most `n` values -/
def XBooks (n : Nat) (st : LState E Q) : Prop :=
  ∃ R : List (Cell × E.U), R.length ≤ n ∧ Books st.heap (st.maps.flatMap LMap.cells ++ R)

theorem XBooks.on {n k : Nat} {st : LState E Q} (b : XBooks n st) (i : Nat)
    {f : Heap E.U → LMap E Q → Heap E.U × LMap E Q}
    (hf : ∀ m, st.maps[i]? = some m → XKeeps k f st.heap m) : XBooks (n + k) (st.on i f) := by
  obtain ⟨R, hR, b⟩ := b
  unfold LState.on
  cases hi : st.maps[i]? with
  | none => exact ⟨R, by omega, b⟩
  | some m =>
    obtain ⟨hlt, rfl⟩ := List.getElem?_eq_some_iff.1 hi
    have hsp : st.maps = st.maps.take i ++ st.maps[i] :: st.maps.drop (i + 1) := by
      rw [← List.drop_eq_getElem_cons, List.take_append_drop]
    have hset : ∀ y, st.maps.set i y = st.maps.take i ++ y :: st.maps.drop (i + 1) := fun y => by
      rw [List.set_eq_take_append_cons_drop, if_pos hlt]
    obtain ⟨lost, hl, b'⟩ := hf _ hi ((st.maps.take i).flatMap LMap.cells ++
      ((st.maps.drop (i + 1)).flatMap LMap.cells ++ R)) (b.perm (by
        conv_lhs => rw [hsp]
        simp only [List.flatMap_append, List.flatMap_cons]
        classical
        rw [List.perm_iff_count]
        intro a
        simp only [List.count_append]
        omega))
    refine ⟨lost ++ R, by simp only [List.length_append]; omega, b'.perm ?_⟩
    simp only [hset, List.flatMap_append, List.flatMap_cons]
    classical
    rw [List.perm_iff_count]
    intro a
    simp only [List.count_append]
    omega

theorem XBooks.push {n : Nat} {st : LState E Q} {h : Heap E.U} {om : Option (LMap E Q)} {R : List (Cell × E.U)}
    (hR : R.length ≤ n) (b : Books h ((om.elim [] LMap.cells) ++ (st.maps.flatMap LMap.cells ++ R))) :
    XBooks n (st.push (h, om)) := by
  cases om with
  | none => exact ⟨R, hR, b⟩
  | some m =>
    refine ⟨R, hR, b.perm ?_⟩
    simp only [LState.push, Option.elim_some, List.flatMap_append, List.flatMap_cons, List.flatMap_nil,
      List.append_nil]
    rw [← List.append_assoc]
    exact List.perm_append_comm.append_right _

open Classical in
theorem XBooks.step {n : Nat} {st : LState E Q} (b : XBooks n st) (o : XOp E Q)
    (ho : o.ReadsRange → ∀ m ∈ st.maps, StatsInOrder A m) :
    XBooks (n + if o.MayLeak then 1 else 0) (st.hostile A o) := by
  cases o with
  | new =>
    obtain ⟨R, hR, b⟩ := b
    exact ⟨R, by omega, by simpa [LState.hostile, LMap.cells] using b⟩
  | insert i q s a =>
    rw [if_pos (by exact True.intro)]
    exact b.on i fun m _ => XKeeps.insert q s a
  | get i s a => exact b.on i fun m _ => (XKeeps.get s a).mono (by omega)
  | modify i q s a fails => exact b.on i fun m _ => (XKeeps.modify q s a fails).mono (by omega)
  | remove i s a => exact b.on i fun m _ => (XKeeps.remove s a).mono (by omega)
  | iter i s k =>
    exact b.on i fun m hm => (XKeeps.iter (ho True.intro m (List.mem_of_getElem? hm)) s k).mono (by omega)
  | removeAll i s => exact b.on i fun m _ => (XKeeps.removeAll s).mono (by omega)
  | clear i => exact b.on i fun m _ => XKeeps.clear.mono (by omega)
  | query i s v =>
    exact b.on i fun m hm => XKeeps.query (ho True.intro m (List.mem_of_getElem? hm)) s v
  | extend i T items fails σ => exact b.on i fun m _ => (XKeeps.extend T items fails σ).mono (by omega)
  | clone i failsAt =>
    obtain ⟨R, hR, b⟩ := b
    simp only [LState.hostile]
    cases hi : st.maps[i]? with
    | none => exact ⟨R, by omega, b⟩
    | some m =>
      simp only [LMap.cloneA]
      obtain ⟨b1, -⟩ := Books.cloneAllA m b (fun e he => List.mem_append_left _
        (List.mem_flatMap.2 ⟨m, List.mem_of_getElem? hi, List.mem_map.2 ⟨e, he, rfl⟩⟩)) failsAt
      generalize LMap.cloneAllA st.heap m failsAt = r at b1
      obtain ⟨h', l', ok⟩ := r
      cases ok with
      | true => exact XBooks.push (om := some l') (by omega) b1
      | false => exact XBooks.push (om := none) (R := R) (by omega) (Books.dropAll b1)
  | fromIter T items fails sortFails σ =>
    obtain ⟨R, hR, b⟩ := b
    simp only [LState.hostile, LMap.fromIterA]
    rcases b.entries T fails items with ⟨hs, h', l, h1, h2, h3⟩ | ⟨hs, h', h1, h2⟩
    · simp only [h1]
      have h4 : Books h' (LMap.cells (σ.apply l) ++ (st.maps.flatMap LMap.cells ++ R)) :=
        h2.perm (List.Perm.append_right _ ((σ.perm l).map _).symm)
      cases sortFails with
      | true => exact XBooks.push (om := none) (R := R) (by omega) (Books.dropAll h4)
      | false => exact XBooks.push (om := some _) (by omega) h4
    · simp only [h1]
      exact XBooks.push (om := none) (R := R) (by omega) h2
  | dropMap i =>
    obtain ⟨R, hR, b⟩ := b
    simp only [LState.hostile]
    cases hi : st.maps[i]? with
    | none => exact ⟨R, by omega, b⟩
    | some m =>
      obtain ⟨hlt, rfl⟩ := List.getElem?_eq_some_iff.1 hi
      refine ⟨R, by omega, Books.dropAll (b.perm ?_)⟩
      have hsp : st.maps = st.maps.take i ++ st.maps[i] :: st.maps.drop (i + 1) := by
        rw [← List.drop_eq_getElem_cons, List.take_append_drop]
      rw [List.eraseIdx_eq_take_drop_succ]
      conv_lhs => rw [hsp]
      simp only [List.flatMap_append, List.flatMap_cons]
      rw [List.perm_iff_count]
      intro a
      simp only [List.count_append]
      omega

/-! ### stats stay in order -/

theorem StatsInOrder.sublist {l l' : List (Entry E Q Cell)} (h : StatsInOrder A l) (hs : l'.Sublist l) :
    StatsInOrder A l' := List.Pairwise.sublist hs h

theorem StatsInOrder.of_stats {l l' : List (Entry E Q Cell)} (h : StatsInOrder A l)
    (hs : l'.map Entry.stat = l.map Entry.stat) : StatsInOrder A l' := by
  have h1 : (l.map Entry.stat).Pairwise (fun a b => a.cmp A b ≠ .gt) := List.pairwise_map.2 h
  rw [← hs] at h1
  exact List.pairwise_map.1 h1

theorem StatsInOrder.place {m : LMap E Q} {s : StatInst E} {a : Answers Q} {r : Except Nat Nat}
    (h : StatsInOrder A m) (hs : m.searchA A s a = some r) (q : Qualifier Q) (x : Cell) :
    StatsInOrder A (LMap.place m q s x r) := by
  cases r with
  | ok i =>
    refine h.of_stats ?_
    obtain ⟨pre, e, post, rfl, rfl, rfl⟩ := Vec.searchA_ok hs
    simp only [LMap.place]
    rw [List.modify_eq_take_cons_drop (h := by simp)]
    simp
  | error i =>
    obtain ⟨pre, post, rfl, rfl, h1⟩ := Vec.searchA_error hs
    obtain ⟨h1, h2⟩ := h1 h
    simp only [LMap.place]
    rw [insertIdx_mid]
    obtain ⟨h3, h4, h5⟩ := List.pairwise_append.1 h
    refine List.pairwise_append.2 ⟨h3, List.pairwise_cons.2 ⟨fun y hy => h2 y hy, h4⟩, fun y hy z hz => ?_⟩
    rcases List.mem_cons.1 hz with rfl | hz
    · exact h1 y hy
    · exact h5 y hy z hz

theorem inOrder_on {st : LState E Q} (h : ∀ m ∈ st.maps, StatsInOrder A m) (i : Nat)
    {f : Heap E.U → LMap E Q → Heap E.U × LMap E Q}
    (hf : ∀ m, StatsInOrder A m → StatsInOrder A (f st.heap m).2) : ∀ m ∈ (st.on i f).maps, StatsInOrder A m := by
  unfold LState.on
  cases hi : st.maps[i]? with
  | none => exact h
  | some m =>
    intro m' hm'
    rcases List.mem_or_eq_of_mem_set hm' with h1 | rfl
    · exact h m' h1
    · exact hf m (h m (List.mem_of_getElem? hi))

theorem inOrder_step {st : LState E Q} (h : ∀ m ∈ st.maps, StatsInOrder A m) (o : XOp E Q) (ho : o.Orderly A) :
    ∀ m ∈ (st.hostile A o).maps, StatsInOrder A m := by
  cases o with
  | new =>
    intro m hm
    rcases List.mem_append.1 hm with hm | hm
    · exact h m hm
    · cases List.mem_singleton.1 hm; exact List.Pairwise.nil
  | insert i q s a =>
    refine inOrder_on h i fun m hm => ?_
    simp only [LMap.insertA]
    split
    · exact hm
    · split
      · exact hm
      · rename_i hr; exact hm.place hr q _
  | get i s a =>
    refine inOrder_on h i fun m hm => ?_
    simp only [LMap.getA]
    split
    · split <;> exact hm
    · exact hm
  | modify i q s a fails =>
    refine inOrder_on h i fun m hm => ?_
    simp only [LMap.modifyA]
    split
    · exact hm
    · split <;> exact hm
    · rename_i hr
      split
      · exact hm
      · split
        · exact hm
        · exact hm.place hr q _
  | remove i s a =>
    refine inOrder_on h i fun m hm => ?_
    simp only [LMap.removeA]
    split
    · split
      · exact hm.sublist (List.eraseIdx_sublist ..)
      · exact hm
    · exact hm
  | iter i s k =>
    refine inOrder_on h i fun m hm => ?_
    simp only [LMap.iterA]
    split <;> exact hm
  | removeAll i s =>
    refine inOrder_on h i fun m hm => ?_
    simp only [LMap.removeAll]
    let _ : Ord Q := ⟨fun _ _ => .eq⟩
    rw [Vec.removeAll_le hm s]
    exact hm.sublist List.filter_sublist
  | clear i => exact inOrder_on h i fun m _ => List.Pairwise.nil
  | query i s v =>
    refine inOrder_on h i fun m hm => ?_
    simp only [LMap.queryA]
    split
    · exact hm
    · split <;> exact hm
  | clone i failsAt =>
    simp only [LState.hostile]
    cases hi : st.maps[i]? with
    | none => exact h
    | some m =>
      simp only [LMap.cloneA]
      have hc : ∀ (l : LMap E Q) (hp : Heap E.U) (fa : Option (Nat × Bool)),
          (LMap.cloneAllA hp l fa).2.2 = true → (LMap.cloneAllA hp l fa).2.1.map Entry.stat = l.map Entry.stat := by
        intro l
        induction l with
        | nil => exact fun _ _ _ => rfl
        | cons e l ih =>
          intro hp fa
          unfold LMap.cloneAllA
          split
          · intro h; cases h
          · intro h
            simp only [List.map_cons]
            rw [ih _ _ h]
      have hcm := hc m st.heap failsAt
      generalize LMap.cloneAllA st.heap m failsAt = r at hcm
      obtain ⟨h', l', ok⟩ := r
      cases ok with
      | true =>
        intro m' hm'
        rcases List.mem_append.1 hm' with hm' | hm'
        · exact h m' hm'
        · cases List.mem_singleton.1 hm'
          exact (h m (List.mem_of_getElem? hi)).of_stats (hcm rfl)
      | false => exact h
  | fromIter T items fails sortFails σ =>
    simp only [LState.hostile, LMap.fromIterA]
    split
    · split
      · exact h
      · intro m' hm'
        rcases List.mem_append.1 hm' with hm' | hm'
        · exact h m' hm'
        · cases List.mem_singleton.1 hm'
          exact ho _
    · exact h
  | extend i T items fails σ =>
    refine inOrder_on h i fun m hm => ?_
    simp only [LMap.extendA]
    split
    · obtain ⟨h1, h2⟩ := ho
      subst h1
      exact h2 _
    · exact hm
  | dropMap i =>
    simp only [LState.hostile]
    cases hi : st.maps[i]? with
    | none => exact h
    | some m => exact fun m' hm' => h m' (List.mem_of_mem_eraseIdx hm')

end BSQ
