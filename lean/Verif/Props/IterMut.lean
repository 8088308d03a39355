import Verif.Spec.IterMut
import Verif.Spec.Demo
import Verif.Props.Multimap
import Verif.Props.Unwind
/-!
# C125: what a caller can do with `iter_mut`
-/
set_option linter.unusedSectionVars false
namespace BSQ
variable {E : Env} {Q : Type} {ρ : Type}

/-- an item as an entry of the vector -/
def IterProg.entry (s : StatInst E) (p : Qualifier Q × s.Val) : Entry E Q (Buf E) := ⟨s, p.1, .val s.ty p.2⟩

/-- the qualifiers stay -/
theorem IterProg.onList_quals {V : Type} (p : IterProg Q V ρ) (done todo : List (Qualifier Q × V)) :
    (p.onList done todo).1.map (·.1) = (done ++ todo).map (·.1) := by
  induction p generalizing done todo with
  | ret a => rfl
  | fail e => rfl
  | next k ih =>
    cases todo with
    | nil => exact ih _ _ _
    | cons x t => simpa [onList] using ih (some x) (done ++ [x]) t
  | write i v k ih =>
    refine (ih _ _).trans ?_
    rw [List.map_append, List.map_append]
    congr 1
    induction done generalizing i with
    | nil => cases i <;> rfl
    | cons x d ihd =>
      cases i with
      | zero => rfl
      | succ i => simpa using ihd i

theorem IterProg.onList_length {V : Type} (p : IterProg Q V ρ) (done todo : List (Qualifier Q × V)) :
    (p.onList done todo).1.length = done.length + todo.length := by
  have := congrArg List.length (p.onList_quals done todo)
  simpa using this

theorem modify_after {α : Type} (pre l : List α) (i : Nat) (f : α → α) :
    (pre ++ l).modify (pre.length + i) f = pre ++ l.modify i f := by
  induction pre with
  | nil => simp
  | cons x pre ih => rw [List.cons_append, List.length_cons, Nat.add_right_comm, List.modify_succ_cons, ih]; rfl

theorem modify_mapped {α β : Type} {g : α → β} {f : β → β} {f' : α → α} (h : ∀ x, f (g x) = g (f' x))
    {d : List α} {r : List β} {i : Nat} (hi : i < d.length) :
    (d.map g ++ r).modify i f = (d.modify i f').map g ++ r := by
  induction d generalizing i with
  | nil => simp at hi
  | cons x d ih =>
    cases i with
    | zero => simp [h]
    | succ i =>
      have := ih (i := i) (by simpa using hi)
      simp only [List.map_cons, List.cons_append, List.modify_succ_cons, this]

theorem IterProg.exec_eq (s : StatInst E) (p : IterProg Q s.Val ρ) (pre post : StatMap E Q)
    (done todo : List (Qualifier Q × s.Val)) (hs : done ++ todo ≠ [] → Storable (E.layout s.ty)) :
    p.exec s pre.length (pre.length + (done.length + todo.length)) (pre.length + done.length)
      (pre ++ ((done ++ todo).map (entry s) ++ post)) =
    (pre ++ ((p.onList done todo).1.map (entry s) ++ post), (p.onList done todo).2) := by
  induction p generalizing done todo with
  | ret a => rfl
  | fail e => rfl
  | next k ih =>
    cases todo with
    | nil =>
      unfold exec
      rw [if_neg (by simp)]
      exact ih none done [] hs
    | cons x t =>
      unfold exec
      rw [if_pos (by simp)]
      have hget : (pre ++ ((done ++ x :: t).map (entry s) ++ post))[pre.length + done.length]? =
          some (entry s x) := by
        rw [List.getElem?_append_right (by omega), Nat.add_sub_cancel_left,
          List.getElem?_append_left (by simp), List.getElem?_map,
          List.getElem?_append_right (by omega), Nat.sub_self]
        rfl
      rw [hget]
      simp only [entry, Buf.read_val (hs (by simp))]
      have := ih (some x) (done ++ [x]) t (fun _ => hs (by simp))
      simpa [onList, Nat.add_assoc, Nat.add_comm, Nat.add_left_comm] using this
  | write i v k ih =>
    unfold exec onList
    have hlen : (done.modify i (fun p => (p.1, v))).length = done.length := by simp
    have := ih (done.modify i (fun p => (p.1, v))) todo (fun h => hs (by
      intro h'
      obtain ⟨rfl, rfl⟩ := List.append_eq_nil_iff.1 h'
      apply h
      cases i <;> rfl))
    rw [hlen] at this
    rw [← this]
    congr 1
    by_cases hi : i < done.length
    · rw [if_pos (by omega), modify_after, List.map_append, List.map_append, List.append_assoc, List.append_assoc,
        modify_mapped (g := entry s) (f := fun e => { e with buf := .val s.ty v }) (f' := fun p => (p.1, v)) (fun x => rfl) hi]
    · rw [if_neg (by omega), List.modify_eq_self (by omega)]


variable [DecidableEq Q] [Ord Q] [Std.TransOrd Q] [Std.LawfulEqOrd Q] (A : Addr E)

/-- the vector around a stat, and what a caller of `iter_mut` does to it -/
theorem BRep.iterMutProg {A : Addr E} {m : StatMap E Q} {l : List (Keyed E Q)} (h : BRep A m l) (s : StatInst E) :
    ∃ (pre post : StatMap E Q) (L : List (Qualifier Q × s.Val)),
      m = pre ++ (L.map (IterProg.entry s) ++ post) ∧ Vec.range A m s = (pre.length, pre.length + L.length) ∧
      (∀ e ∈ pre, e.stat ≠ s) ∧ (∀ e ∈ post, e.stat ≠ s) ∧ (L ≠ [] → Storable (E.layout s.ty)) ∧
      (L.map (·.1)).Pairwise (fun x y => ¬ KeyBefore.QualBefore y x) ∧ StatMap.iter A m s = .ok L ∧
      ∀ {ρ : Type} (p : IterProg Q s.Val ρ), StatMap.iterMutProg A m s p =
        (pre ++ ((p.onList [] L).1.map (IterProg.entry s) ++ post), (p.onList [] L).2) := by
  obtain ⟨L, hL, -, hp, hs⟩ := h.statList s
  obtain ⟨h1, h2, h3, h4, h5⟩ := Vec.range_le h.stat_le s
  have hsplit := Vec.split_le h.stat_le s
  rw [hL] at hsplit h4
  have l1 : (m.take (Vec.range A m s).1).length = (Vec.range A m s).1 := by
    rw [List.length_take]; omega
  rw [h3] at l1
  have l2 := congrArg List.length h4
  rw [List.length_drop, List.length_take, List.length_map] at l2
  have hr : Vec.range A m s = ((m.filter (fun e => e.stat.cmp A s == .lt)).length,
      (m.filter (fun e => e.stat.cmp A s == .lt)).length + L.length) := by
    refine Prod.ext l1.symm ?_
    show (Vec.range A m s).2 = _ + _
    rw [l1]; omega
  refine ⟨m.filter (fun e => e.stat.cmp A s == .lt), m.filter (fun e => e.stat.cmp A s == .gt), L, hsplit, hr,
    fun e he => ?_, fun e he => ?_, hs, hp, h.iter s hL hs, fun p => ?_⟩
  · have := (List.mem_filter.1 he).2
    exact Vec.stat_cmp_lt_ne (by simpa using this)
  · have := (List.mem_filter.1 he).2
    exact Vec.stat_cmp_gt_ne (by simpa using this)
  · have := p.exec_eq s (m.filter (fun e => e.stat.cmp A s == .lt)) (m.filter (fun e => e.stat.cmp A s == .gt)) [] L hs
    simp only [List.length_nil, Nat.zero_add, Nat.add_zero, List.nil_append] at this
    unfold StatMap.iterMutProg
    simp only
    rw [if_neg (by omega), hr]
    have e : m = m.filter (fun e => e.stat.cmp A s == .lt) ++ (L.map (IterProg.entry s) ++
        m.filter (fun e => e.stat.cmp A s == .gt)) := hsplit
    exact (congrArg _ e).trans this

/-- entries of the same keys -/
theorem BRep.retouch {A : Addr E} {l : List (Keyed E Q)} {s : StatInst E} {pre post : StatMap E Q}
    {L L' : List (Qualifier Q × s.Val)} (h : BRep A (pre ++ (L.map (IterProg.entry s) ++ post)) l)
    (hq : L'.map (·.1) = L.map (·.1)) : ∃ l', BRep A (pre ++ (L'.map (IterProg.entry s) ++ post)) l' := by
  obtain ⟨he, hs, hst⟩ := h
  obtain ⟨l1, l2, rfl, e1, e2⟩ := List.map_eq_append_iff.1 he.symm
  obtain ⟨l3, l4, rfl, e3, e4⟩ := List.map_eq_append_iff.1 e2
  have hk : ∀ x : Keyed E Q, (x.entry.stat, x.entry.qual) = (x.1.stat, x.1.qual) := fun _ => rfl
  have k3 : l3.map (·.1) = L.map (fun p => (⟨s, p.1⟩ : Key E Q)) := by
    have := congrArg (List.map Entry.key) e3
    rw [List.map_map, List.map_map] at this
    exact this
  have k3' : (L'.map (fun p => (⟨⟨s, p.1⟩, p.2⟩ : Keyed E Q))).map (·.1) = l3.map (·.1) := by
    rw [k3, List.map_map]
    have := congrArg (List.map (fun q => (⟨s, q⟩ : Key E Q))) hq
    rwa [List.map_map, List.map_map] at this
  refine ⟨l1 ++ (L'.map (fun p => (⟨⟨s, p.1⟩, p.2⟩ : Keyed E Q)) ++ l4), ?_, ?_, ?_⟩
  · rw [List.map_append, List.map_append, e1, e4, List.map_map]; rfl
  · rw [List.map_append, List.map_append, k3'] 
    rwa [List.map_append, List.map_append] at hs
  · have : ∀ k ∈ (l1 ++ (l3 ++ l4)).map (·.1), Storable (E.layout k.stat.ty) := by
      intro k hk
      obtain ⟨x, hx, rfl⟩ := List.mem_map.1 hk
      exact hst x hx
    intro x hx
    refine this x.1 ?_
    rw [List.map_append, List.map_append, ← k3', ← List.map_append, ← List.map_append]
    exact List.mem_map_of_mem hx

/-- reading an unrelated stat -/
theorem StatMap.iter_other {A : Addr E} {l l' : List (Keyed E Q)} {s t : StatInst E} {pre post : StatMap E Q}
    {L L' : List (Qualifier Q × s.Val)} (h : BRep A (pre ++ (L.map (IterProg.entry s) ++ post)) l)
    (h' : BRep A (pre ++ (L'.map (IterProg.entry s) ++ post)) l') (ht : t ≠ s) :
    StatMap.iter A (pre ++ (L'.map (IterProg.entry s) ++ post)) t =
      StatMap.iter A (pre ++ (L.map (IterProg.entry s) ++ post)) t := by
  have none : ∀ L : List (Qualifier Q × s.Val),
      (L.map (IterProg.entry s)).filter (fun e => decide (e.stat = t)) = [] := by
    intro L
    rw [List.filter_eq_nil_iff]
    intro e he
    obtain ⟨p, -, rfl⟩ := List.mem_map.1 he
    intro hd
    exact ht (of_decide_eq_true hd).symm
  unfold StatMap.iter
  rw [Vec.slice_le h.stat_le, Vec.slice_le h'.stat_le]
  simp only [List.filter_append, none]

/-- **C125** Whatever a caller does with the iterator of `iter_mut` — looking at qualifiers, stopping early, keeping
several references and writing through them in any order, panicking half-way — is what the same program does to the
plain list of the stat's qualifiers and values, in ascending order of qualifiers: the outcome is the same, the list
afterwards is the one `iter` shows, the keys are those from before, and other stats are untouched. -/
theorem C125_program (h : List (MultiOp E Q)) (m : StatMap E Q) (hm : StatMap.multiRun A [] h = .ok m)
    (s : StatInst E) (p : IterProg Q s.Val ρ) :
    ∃ L, StatMap.iter A m s = .ok L ∧ (L.map (·.1)).Pairwise (fun x y => ¬ KeyBefore.QualBefore y x) ∧
      (StatMap.iterMutProg A m s p).2 = (p.onList [] L).2 ∧
      StatMap.iter A (StatMap.iterMutProg A m s p).1 s = .ok (p.onList [] L).1 ∧
      (∀ t, t ≠ s → StatMap.iter A (StatMap.iterMutProg A m s p).1 t = StatMap.iter A m t) ∧
      (StatMap.iterMutProg A m s p).1.map (fun e => (e.stat, e.qual)) = m.map (fun e => (e.stat, e.qual)) := by
  have hb := (BRep.nil (E := E) (Q := Q) (A := A)).run h
  rw [hm] at hb
  obtain ⟨l, hb, -⟩ := hb
  obtain ⟨pre, post, L, rfl, -, h1, h2, hs, hp, hi, hprog⟩ := hb.iterMutProg s
  have hq := p.onList_quals [] L
  rw [List.nil_append] at hq
  obtain ⟨l', hb'⟩ := hb.retouch hq
  refine ⟨L, hi, hp, by rw [hprog], ?_, fun t ht => ?_, ?_⟩
  · rw [hprog]
    refine hb'.iter s ?_ fun hne => hs fun h0 => hne ?_
    · have e1 : pre.filter (fun e => decide (e.stat = s)) = [] :=
        List.filter_eq_nil_iff.2 fun e he => by simpa using h1 e he
      have e2 : post.filter (fun e => decide (e.stat = s)) = [] :=
        List.filter_eq_nil_iff.2 fun e he => by simpa using h2 e he
      have e3 : ((p.onList [] L).1.map (IterProg.entry s)).filter (fun e => decide (e.stat = s)) =
          (p.onList [] L).1.map (IterProg.entry s) := List.filter_eq_self.2 (by
        intro e he
        obtain ⟨p, -, rfl⟩ := List.mem_map.1 he
        simp [IterProg.entry])
      rw [List.filter_append, List.filter_append, e1, e2, e3, List.nil_append, List.append_nil]
      rfl
    · subst h0
      simpa using hq
  · rw [hprog]; exact StatMap.iter_other hb hb' ht
  · rw [hprog]
    simp only [List.map_append, List.map_map]
    congr 2
    have := congrArg (List.map (fun q => (s, q))) hq
    rwa [List.map_map, List.map_map] at this


/-- **C125** Nothing goes wrong that the caller did not do: errors are the caller's own, and in particular undefined
behaviour is. -/
theorem C125_errors (h : List (MultiOp E Q)) (m : StatMap E Q) (hm : StatMap.multiRun A [] h = .ok m)
    (s : StatInst E) (p : IterProg Q s.Val ρ) (P : Err → Prop) (hp : p.FailsOnly P) (e : Err)
    (he : (StatMap.iterMutProg A m s p).2 = .error e) : P e := by
  obtain ⟨L, -, -, h1, -⟩ := C125_program A h m hm s p
  rw [h1] at he
  generalize ([] : List (Qualifier Q × s.Val)) = done at he
  clear h1
  induction hp generalizing done L with
  | ret a => cases he
  | fail e' hP => cases he; exact hP
  | next k _ ih =>
    cases L with
    | nil => exact ih none [] _ he
    | cons x L => exact ih (some x) L _ he
  | write i v k _ ih => exact ih L _ he

/-- the caller asks for at most `n` items -/
inductive IterProg.Takes {V : Type} : Nat → IterProg Q V ρ → Prop where
  | ret (n a) : Takes n (.ret a)
  | fail (n e) : Takes n (.fail e)
  | next (n k) : (∀ x, Takes n (k x)) → Takes (n + 1) (.next k)
  | write (n i v k) : Takes n k → Takes n (.write i v k)

/-- **C125** Stopping early: the values after the items asked for stay; if none is asked for, the map stays as it is. -/
theorem C125_stop (h : List (MultiOp E Q)) (m : StatMap E Q) (hm : StatMap.multiRun A [] h = .ok m)
    (s : StatInst E) (p : IterProg Q s.Val ρ) (n : Nat) (hp : p.Takes n) :
    (∃ L L', StatMap.iter A m s = .ok L ∧ StatMap.iter A (StatMap.iterMutProg A m s p).1 s = .ok L' ∧
      L'.drop n = L.drop n) ∧ (n = 0 → (StatMap.iterMutProg A m s p).1 = m) := by
  have key : ∀ done L : List (Qualifier Q × s.Val),
      (p.onList done L).1.drop (done.length + n) = L.drop n := by
    intro done L
    induction hp generalizing done L with
    | ret n a => simp [IterProg.onList]
    | fail n e => simp [IterProg.onList]
    | next n k _ ih =>
      cases L with
      | nil =>
        have := ih none done []
        simp only [List.drop_nil, List.drop_eq_nil_iff] at this ⊢
        exact Nat.le_trans this (by omega)
      | cons x L =>
        have := ih (some x) (done ++ [x]) L
        simp only [List.length_append, List.length_singleton] at this
        rw [List.drop_succ_cons, ← this]
        congr 1
        omega
    | write n i v k _ ih =>
      have := ih (done.modify i (fun p => (p.1, v))) L
      rwa [List.length_modify] at this
  refine ⟨?_, ?_⟩
  · obtain ⟨L, h1, -, -, h2, -⟩ := C125_program A h m hm s p
    refine ⟨L, _, h1, h2, ?_⟩
    simpa using key [] L
  · rintro rfl
    have hb := (BRep.nil (E := E) (Q := Q) (A := A)).run h
    rw [hm] at hb
    obtain ⟨l, hb, -⟩ := hb
    obtain ⟨pre, post, L, e, -, -, -, -, -, -, hprog⟩ := hb.iterMutProg s
    rw [hprog]
    have := key [] L
    simp only [List.length_nil, Nat.add_zero, List.drop_zero] at this
    rw [this]; exact e.symm

omit [DecidableEq Q] [Ord Q] [Std.TransOrd Q] [Std.LawfulEqOrd Q] in
theorem IterProg.forEach_onList {V : Type} (f : Qualifier Q → V → Res V) (n : Nat)
    (done todo : List (Qualifier Q × V)) (hn : todo.length ≤ n) :
    ((forEach f n done.length).onList done todo).2 =
      (todo.mapM (fun p => f p.1 p.2 >>= fun v => .ok (p.1, v)) >>= fun _ => .ok ()) ∧
    ∀ l, todo.mapM (fun p => f p.1 p.2 >>= fun v => .ok (p.1, v)) = .ok l →
      ((forEach f n done.length).onList done todo).1 = done ++ l := by
  induction n generalizing done todo with
  | zero =>
    obtain rfl : todo = [] := List.length_eq_zero_iff.1 (by omega)
    refine ⟨rfl, fun l hl => ?_⟩
    cases hl; rfl
  | succ n ih =>
    cases todo with
    | nil =>
      refine ⟨rfl, fun l hl => ?_⟩
      cases hl; rfl
    | cons x todo =>
      obtain ⟨q, v⟩ := x
      rw [List.mapM_cons]
      simp only [forEach, onList]
      cases hf : f q v with
      | error e => exact ⟨rfl, fun l hl => by cases hl⟩
      | ok v' =>
        simp only [onList, Res.bind_ok]
        have e1 : (done ++ [(q, v)]).modify done.length (fun p => (p.1, v')) = done ++ [(q, v')] := by
          have := modify_after done [(q, v)] 0 (fun p => (p.1, v'))
          rwa [Nat.add_zero] at this
        rw [e1]
        obtain ⟨i1, i2⟩ := ih (done ++ [(q, v')]) todo (by simpa using hn)
        rw [List.length_append, List.length_singleton] at i1 i2
        refine ⟨?_, fun l hl => ?_⟩
        · rw [i1]
          cases todo.mapM (fun p => f p.1 p.2 >>= fun v => .ok (p.1, v)) <;> rfl
        · obtain ⟨l', hl', e⟩ := Res.bind_eq_ok.1 hl
          cases e
          rw [i2 l' hl', List.append_assoc]; rfl

/-- **C125** The loop over all items that replaces each value by what `f` makes of it (and panics where `f` does) is
the `iter_mut` of the other claims. -/
theorem C125_for_each (h : List (MultiOp E Q)) (m : StatMap E Q) (hm : StatMap.multiRun A [] h = .ok m)
    (s : StatInst E) (f : s.Val → Res s.Val) (n : Nat) (hn : m.length ≤ n) :
    StatMap.iterMut A m s f =
      ((StatMap.iterMutProg A m s (.forEach (fun _ => f) n 0)).2 >>= fun _ =>
        .ok (StatMap.iterMutProg A m s (.forEach (fun _ => f) n 0)).1) := by
  have hb := (BRep.nil (E := E) (Q := Q) (A := A)).run h
  rw [hm] at hb
  obtain ⟨l, hb, -⟩ := hb
  obtain ⟨pre, post, L, e, hr, -, -, hs, -, -, hprog⟩ := hb.iterMutProg s
  have hlen := congrArg List.length e
  rw [List.length_append, List.length_append, List.length_map] at hlen
  obtain ⟨f1, f2⟩ := IterProg.forEach_onList (fun _ => f) n ([] : List (Qualifier Q × s.Val)) L (by omega)
  rw [List.length_nil] at f1 f2
  rw [hprog]
  simp only
  rw [f1]
  have hmid : (m.take (pre.length + L.length)).drop pre.length = L.map (IterProg.entry s) := by
    rw [e, List.take_length_add_append, List.drop_left, List.take_left' (by simp)]
  have hpre : m.take pre.length = pre := by rw [e]; exact List.take_left
  have hpost : m.drop (pre.length + L.length) = post := by
    rw [e, List.drop_length_add_append, List.drop_left' (by simp)]
  have hmap : ∀ L : List (Qualifier Q × s.Val), (L ≠ [] → Storable (E.layout s.ty)) →
      (L.map (IterProg.entry s)).mapM (fun e => do
        let b ← (do
          let v ← e.buf.read s.ty
          let v' ← f v
          .ok (Buf.val s.ty v'))
        (.ok { e with buf := b } : Res (Entry E Q (Buf E)))) =
      (L.mapM (fun p => f p.2 >>= fun v => .ok (p.1, v)) >>= fun l => .ok (l.map (IterProg.entry s))) := by
    intro L hL
    induction L with
    | nil => rfl
    | cons x L ih =>
      rw [List.map_cons, List.mapM_cons, ih fun _ => hL (by simp), List.mapM_cons]
      simp only [IterProg.entry, Buf.read_val (hL (by simp)), Res.bind_ok]
      cases f x.2 with
      | error e => rfl
      | ok v => cases L.mapM (fun p => f p.2 >>= fun v => .ok (p.1, v)) <;> rfl
  unfold StatMap.iterMut Vec.sliceMut
  simp only
  rw [if_neg (by rw [hr]; simp only; omega), hr]
  simp only
  rw [hmid, hmap L hs, hpre, hpost]
  cases hc : L.mapM (fun p => f p.2 >>= fun v => (.ok (p.1, v) : Res _)) with
  | error e => rfl
  | ok l' =>
    simp only [Res.bind_ok]
    rw [f2 l' hc, List.nil_append, List.append_assoc]

/-- **C125** A caller that panics leaves one of the maps C63 speaks of. -/
theorem C125_panic (h : List (MultiOp E Q)) (m : StatMap E Q) (hm : StatMap.multiRun A [] h = .ok m)
    (s : StatInst E) (p : IterProg Q s.Val ρ) :
    Interrupted A m (·.stat = s) (StatMap.iterMutProg A m s p).1 := by
  have hb := (BRep.nil (E := E) (Q := Q) (A := A)).run h
  rw [hm] at hb
  obtain ⟨l, hb, -⟩ := hb
  obtain ⟨pre, post, L, e, hr, -, -, hs, -, -, hprog⟩ := hb.iterMutProg s
  rw [hprog]
  have hmid : (m.take (pre.length + L.length)).drop pre.length = L.map (IterProg.entry s) := by
    rw [e, List.take_length_add_append, List.drop_left, List.take_left' (by simp)]
  have hpre : m.take pre.length = pre := by rw [e]; exact List.take_left
  have hpost : m.drop (pre.length + L.length) = post := by
    rw [e, List.drop_length_add_append, List.drop_left' (by simp)]
  have hq := p.onList_quals [] L
  rw [List.nil_append] at hq
  have := Interrupted.iterMut (A := A) m s ((p.onList [] L).1.map (IterProg.entry s)) (by rw [hr]; simp) (by
    rw [hr]
    simp only
    rw [hmid]
    generalize (p.onList [] L).1 = N at hq
    clear hmid hpost hr hprog hs e
    induction L generalizing N with
    | nil =>
      obtain rfl : N = [] := by simpa using hq
      exact .nil
    | cons x L ih =>
      cases N with
      | nil => simp at hq
      | cons y N =>
        simp only [List.map_cons, List.cons.injEq] at hq
        exact .cons ⟨rfl, hq.1, .inr ⟨y.2, rfl⟩⟩ (ih N hq.2))
  rw [hr] at this
  simp only at this
  rwa [hpre, hpost, List.append_assoc] at this


theorem Vec.search_mid {B : Type} {A : Addr E} {pre post : Vec E Q B} {e : Entry E Q B}
    (h : Vec.Sorted A (pre ++ e :: post)) : (pre ++ e :: post).search A e.qual e.stat = .ok pre.length := by
  have hn := h.nodup
  rcases Vec.search_split h e.qual e.stat with ⟨pre', e', post', hm, hk, hs, h1, h2⟩ | ⟨pre', post', hm, hs, h1, h2⟩
  · rw [hs]
    congr 1
    have g1 : (pre ++ e :: post).map Entry.key = pre'.map Entry.key ++ e'.key :: post'.map Entry.key := by
      rw [hm, List.map_append, List.map_cons]
    have i1 : ((pre ++ e :: post).map Entry.key)[pre'.length]? = some e.key := by
      rw [g1, List.getElem?_append_right (by simp)]
      simp only [List.length_map, Nat.sub_self, List.getElem?_cons_zero]
      rw [hk]
    have i2 : ((pre ++ e :: post).map Entry.key)[pre.length]? = some e.key := by
      rw [List.map_append, List.getElem?_append_right (by simp)]
      simp
    have hlt : pre.length < ((pre ++ e :: post).map Entry.key).length := by simp
    exact ((List.getElem?_inj hlt hn).1 (i2.trans i1.symm)).symm
  · exfalso
    have he : e ∈ pre' ++ post' := by rw [← hm]; simp
    rcases List.mem_append.1 he with he | he
    · exact (h1 e he).ne rfl
    · exact (h2 e he).ne rfl

/-- storing values back under the keys of a stretch of a sorted vector -/
theorem StatMap.runFrom_stores {A : Addr E} {s : StatInst E} (hs : Storable (E.layout s.ty))
    (pre post : StatMap E Q) (L N : List (Qualifier Q × s.Val)) (hq : N.map (·.1) = L.map (·.1))
    (h : Vec.Sorted A (pre ++ (L.map (IterProg.entry s) ++ post))) :
    StatMap.runFrom A (pre ++ (L.map (IterProg.entry s) ++ post)) (MapOp.stores s N) =
      .ok (pre ++ (N.map (IterProg.entry s) ++ post)) := by
  induction N generalizing L pre with
  | nil =>
    obtain rfl : L = [] := by simpa using hq.symm
    rfl
  | cons y N ih =>
    cases L with
    | nil => simp at hq
    | cons x L =>
      simp only [List.map_cons, List.cons.injEq] at hq
      obtain ⟨hxy, hq⟩ := hq
      have hse := Vec.search_mid (A := A) (pre := pre) (e := IterProg.entry s x)
        (post := L.map (IterProg.entry s) ++ post) h
      have hse' : Vec.search A (pre ++ ((x :: L).map (IterProg.entry s) ++ post)) y.1 s = .ok pre.length := by
        rw [hxy]; exact hse
      have hstep : StatMap.step A (pre ++ ((x :: L).map (IterProg.entry s) ++ post))
          (.getMut y.1 s (fun _ => .ok y.2)) =
          .ok ((pre ++ [IterProg.entry s y]) ++ (L.map (IterProg.entry s) ++ post)) := by
        simp only [StatMap.step, StatMap.getMut, StatMap.get, Vec.find, hse']
        have hg : (pre ++ ((x :: L).map (IterProg.entry s) ++ post))[pre.length]? = some (IterProg.entry s x) := by
          rw [List.getElem?_append_right (Nat.le_refl _), Nat.sub_self]; rfl
        rw [hg]
        simp only [Option.map_some, StatMap.readAs, IterProg.entry, Buf.read_val hs, Res.bind_ok, Vec.update]
        rw [hse']
        simp only
        rw [show pre.length = pre.length + 0 from rfl, modify_after]
        simp only [List.map_cons, List.cons_append, List.modify_zero_cons, List.append_assoc, List.nil_append, hxy]
        rfl
      have hnew : Vec.Sorted A ((pre ++ [IterProg.entry s y]) ++ (L.map (IterProg.entry s) ++ post)) := by
        unfold Vec.Sorted at h ⊢
        have hk : (IterProg.entry s y).key = (IterProg.entry s x).key := by
          simp only [Entry.key, IterProg.entry, hxy]
        simpa [hk] using h
      have := ih (pre ++ [IterProg.entry s y]) L hq hnew
      have hcons : StatMap.runFrom A (pre ++ ((x :: L).map (IterProg.entry s) ++ post)) (MapOp.stores s (y :: N)) =
          (StatMap.step A (pre ++ ((x :: L).map (IterProg.entry s) ++ post)) (.getMut y.1 s (fun _ => .ok y.2)) >>=
            fun m' => StatMap.runFrom A m' (MapOp.stores s N)) := rfl
      rw [hcons, hstep]
      simp only [Res.bind_ok]
      rw [this]
      simp

/-- **C125** For a map whose keys are all different, the caller's work amounts to calls of `get_mut`: storing the
values of the list the program ends with, key by key, gives the same map. -/
theorem C125_history (h : List (MapOp E Q)) (m : StatMap E Q) (hm : StatMap.run A h = .ok m) (s : StatInst E)
    (p : IterProg Q s.Val ρ) (L : List (Qualifier Q × s.Val)) (hL : StatMap.iter A m s = .ok L) :
    StatMap.run A (h ++ MapOp.stores s (p.onList [] L).1) = .ok (StatMap.iterMutProg A m s p).1 := by
  obtain ⟨a, -, r⟩ := reachRep A hm
  have hmulti : ∀ (os : List (MapOp E Q)) (m0 : StatMap E Q),
      StatMap.multiRun A m0 (os.map .one) = StatMap.runFrom A m0 os := by
    intro os
    induction os with
    | nil => intro m0; rfl
    | cons o os ih => intro m0; exact congrArg (StatMap.step A m0 o >>= ·) (funext ih)
  have hm' : StatMap.multiRun A [] (h.map .one) = .ok m := (hmulti h []).trans hm
  have hb := (BRep.nil (E := E) (Q := Q) (A := A)).run (h.map .one)
  rw [hm'] at hb
  obtain ⟨l, hb, -⟩ := hb
  obtain ⟨pre, post, L', e, -, -, -, hs, -, hi, hprog⟩ := hb.iterMutProg s
  obtain rfl : L' = L := Except.ok.inj (hi.symm.trans hL)
  rw [hprog]
  have happ : ∀ (xs ys : List (MapOp E Q)) (m0 : StatMap E Q),
      StatMap.runFrom A m0 (xs ++ ys) = (StatMap.runFrom A m0 xs >>= fun m => StatMap.runFrom A m ys) := by
    intro xs ys
    induction xs with
    | nil => intro m0; rfl
    | cons o xs ih =>
      intro m0
      simp only [List.cons_append, StatMap.runFrom]
      cases StatMap.step A m0 o with
      | error e => rfl
      | ok m1 => exact ih m1
  unfold StatMap.run at hm ⊢
  rw [happ, hm]
  simp only [Res.bind_ok]
  have hq := p.onList_quals [] L'
  rw [List.nil_append] at hq
  have hsort := r.sorted
  by_cases hne : L' = []
  · subst hne
    have h0 : (p.onList [] []).1 = [] := by simpa using hq
    rw [h0, e]; rfl
  · rw [e] at hsort ⊢
    exact StatMap.runFrom_stores (hs hne) pre post L' _ hq hsort


/-- **C125** `get` afterwards: for a map whose keys are all different, the values of the stat are those of the list the
program ends with, and all others are as before. -/
theorem C125_get (h : List (MapOp E Q)) (m : StatMap E Q) (hm : StatMap.run A h = .ok m) (s : StatInst E)
    (p : IterProg Q s.Val ρ) (L : List (Qualifier Q × s.Val)) (hL : StatMap.iter A m s = .ok L) :
    (∀ q v, StatMap.get A (StatMap.iterMutProg A m s p).1 q s = .ok (some v) ↔ (q, v) ∈ (p.onList [] L).1) ∧
    (∀ q, StatMap.get A (StatMap.iterMutProg A m s p).1 q s = .ok none ↔ ∀ v, (q, v) ∉ (p.onList [] L).1) ∧
    (∀ q t, t ≠ s → StatMap.get A (StatMap.iterMutProg A m s p).1 q t = StatMap.get A m q t) := by
  have hrun := C125_history A h m hm s p L hL
  obtain ⟨a, -, r⟩ := reachRep A hm
  obtain ⟨a', -, r'⟩ := reachRep A hrun
  have hmulti : ∀ (os : List (MapOp E Q)) (m0 : StatMap E Q),
      StatMap.multiRun A m0 (os.map .one) = StatMap.runFrom A m0 os := by
    intro os
    induction os with
    | nil => intro m0; rfl
    | cons o os ih => intro m0; exact congrArg (StatMap.step A m0 o >>= ·) (funext ih)
  have hm' : StatMap.multiRun A [] (h.map .one) = .ok m := (hmulti h []).trans hm
  obtain ⟨L', h1, -, -, h2, h3, -⟩ := C125_program A (h.map .one) m hm' s p
  obtain rfl : L' = L := Except.ok.inj (h1.symm.trans hL)
  have hmem : ∀ q v, (q, v) ∈ (p.onList [] L').1 ↔
      StatMap.get A (StatMap.iterMutProg A m s p).1 q s = .ok (some v) := by
    obtain ⟨N, hN, -, -, hmem⟩ := C10_iter A _ _ hrun s
    obtain rfl : N = _ := Except.ok.inj (hN.symm.trans h2)
    exact hmem
  refine ⟨fun q v => (hmem q v).symm, fun q => ?_, fun q t ht => ?_⟩
  · simp only [hmem, r'.get]
    constructor
    · intro e v; rw [Except.ok.inj e]; simp
    · intro e
      cases hc : a' ⟨s, q⟩ with
      | none => rfl
      | some v => exact absurd (by rw [hc]) (e v)
  · obtain ⟨N, hN, -, -, hN'⟩ := C10_iter A _ _ hrun t
    obtain ⟨M, hM, -, -, hM'⟩ := C10_iter A _ _ hm t
    obtain rfl : N = M := Except.ok.inj (hN.symm.trans ((h3 t ht).trans hM))
    have key : ∀ v, StatMap.get A (StatMap.iterMutProg A m s p).1 q t = .ok (some v) ↔
        StatMap.get A m q t = .ok (some v) := fun v => (hN' q v).symm.trans (hM' q v)
    rw [r.get, r'.get] at key ⊢
    congr 1
    ext v
    have := key v
    simpa using this

/-! ### non-vacuity -/

/-- two integer bonuses and a flag -/
def swapDemo : List (MapOp demo (BitVec 8)) :=
  [.insert ⟨1, 0⟩ (demoInt 0) ⟨5, 0, 100, 1⟩, .insert ⟨0, 0⟩ (demoInt 0) ⟨7, 0, 100, 1⟩,
   .insertBase ⟨0, 0⟩ (demoFlag 3) 6#8]

/-- both references are kept and their values exchanged, which no function applied to each value can do -/
example : ∃ m, StatMap.run demoAddr swapDemo = .ok m ∧
    StatMap.iter demoAddr m (demoInt 0) = .ok [(⟨0, 0⟩, (⟨7, 0, 100, 1⟩ : StatInt)), (⟨1, 0⟩, ⟨5, 0, 100, 1⟩)] ∧
    (StatMap.iterMutProg demoAddr m (demoInt 0) .swapTwo).2 = .ok true ∧
    StatMap.iter demoAddr (StatMap.iterMutProg demoAddr m (demoInt 0) .swapTwo).1 (demoInt 0) =
      .ok [(⟨0, 0⟩, (⟨5, 0, 100, 1⟩ : StatInt)), (⟨1, 0⟩, ⟨7, 0, 100, 1⟩)] :=
  ⟨_, rfl, rfl, rfl, rfl⟩

/-- a write, then a panic: the first value has changed, the second has not -/
example : ∃ m, StatMap.run demoAddr swapDemo = .ok m ∧
    (StatMap.iterMutProg (ρ := Unit) demoAddr m (demoInt 0)
      (.next fun _ => .write 0 ⟨1, 1, 1, 1⟩ (.fail .panic))).2 = .error .panic ∧
    StatMap.iter demoAddr (StatMap.iterMutProg (ρ := Unit) demoAddr m (demoInt 0)
      (.next fun _ => .write 0 ⟨1, 1, 1, 1⟩ (.fail .panic))).1 (demoInt 0) =
      .ok [(⟨0, 0⟩, (⟨1, 1, 1, 1⟩ : StatInt)), (⟨1, 0⟩, ⟨5, 0, 100, 1⟩)] :=
  ⟨_, rfl, rfl, rfl⟩

/-- such a program takes one item and fails only with a panic -/
example : IterProg.Takes (Q := BitVec 8) (V := Nat) (ρ := Unit) 1 (.next fun _ => .write 0 3 (.fail .panic)) ∧
    IterProg.FailsOnly (Q := BitVec 8) (V := Nat) (ρ := Unit) (· = .panic)
      (.next fun _ => .write 0 3 (.fail .panic)) :=
  ⟨.next _ _ fun _ => .write _ _ _ _ (.fail _ _), .next _ fun _ => .write _ _ _ (.fail _ rfl)⟩

end BSQ
