import Verif.Proofs.Multimap
import Verif.Props.StatMap
/-!
# C74: maps with repeated keys
-/
set_option linter.unusedSectionVars false
namespace BSQ
variable {E : Env} {Q : Type} [DecidableEq Q] [Ord Q] [Std.TransOrd Q] [Std.LawfulEqOrd Q] (A : Addr E)

namespace BRep
variable {A} {m : StatMap E Q} {l : List (Keyed E Q)}

/-- the entries of one stat -/
theorem statList (h : BRep A m l) (s : StatInst E) : ∃ L : List (Qualifier Q × s.Val),
    m.filter (fun e => decide (e.stat = s)) = L.map (fun p => ⟨s, p.1, .val s.ty p.2⟩) ∧
    L.map (fun p => (⟨⟨s, p.1⟩, p.2⟩ : Keyed E Q)) = l.filter (fun x => decide (x.1.stat = s)) ∧
    (L.map (·.1)).Pairwise (fun x y => ¬ KeyBefore.QualBefore y x) ∧ (L ≠ [] → Storable (E.layout s.ty)) := by
  have hex : ∀ l : List (Keyed E Q), (∀ x ∈ l, x.1.stat = s) →
      ∃ L : List (Qualifier Q × s.Val), L.map (fun p => (⟨⟨s, p.1⟩, p.2⟩ : Keyed E Q)) = l := by
    intro l
    induction l with
    | nil => intro _; exact ⟨[], rfl⟩
    | cons x l ih =>
      intro hl
      obtain ⟨L, hL⟩ := ih (fun y hy => hl y (by simp [hy]))
      have he := hl x (by simp)
      obtain ⟨⟨t, q⟩, v⟩ := x
      simp only at he
      subst he
      exact ⟨(q, v) :: L, by rw [List.map_cons, hL]⟩
  obtain ⟨L, hL⟩ := hex (l.filter (fun x => decide (x.1.stat = s))) (by simp)
  refine ⟨L, ?_, hL, ?_, ?_⟩
  · rw [h.eq, List.filter_map]
    have : (l.filter ((fun e : Entry E Q (Buf E) => decide (e.stat = s)) ∘ Keyed.entry)) =
        L.map (fun p => (⟨⟨s, p.1⟩, p.2⟩ : Keyed E Q)) := by rw [hL]; rfl
    rw [this, List.map_map]; rfl
  · have hs := (h.filter (fun x => decide (x.1.stat = s))).sorted
    rw [← hL, List.map_map, List.pairwise_map] at hs
    rw [List.pairwise_map]
    refine hs.imp ?_
    intro x y hxy hlt
    apply hxy
    show (s.cmp A s).then (x.1.cmp y.1) = .gt
    rw [Std.ReflCmp.compare_self (cmp := StatInst.cmp A)]
    show x.1.cmp y.1 = .gt
    rw [Std.OrientedCmp.gt_iff_lt (cmp := Qualifier.cmp)]
    simp only [Qualifier.cmp, Ordering.then_eq_lt]
    rcases hlt with h3 | ⟨h3, h4⟩
    · exact .inl h3
    · exact .inr ⟨by rw [h3]; exact Std.ReflCmp.compare_self, h4⟩
  · intro hne
    obtain ⟨p, hp⟩ := List.exists_mem_of_ne_nil _ hne
    have : (⟨⟨s, p.1⟩, p.2⟩ : Keyed E Q) ∈ l.filter (fun x => decide (x.1.stat = s)) := by
      rw [← hL]; exact List.mem_map.2 ⟨p, hp, rfl⟩
    exact h.storable _ (List.mem_filter.1 this).1

theorem iter (h : BRep A m l) (s : StatInst E) {L : List (Qualifier Q × s.Val)}
    (hL : m.filter (fun e => decide (e.stat = s)) = L.map (fun p => ⟨s, p.1, .val s.ty p.2⟩))
    (hst : L ≠ [] → Storable (E.layout s.ty)) : StatMap.iter A m s = .ok L := by
  unfold StatMap.iter
  rw [Vec.slice_le h.stat_le, hL]
  simp only [Res.bind_ok]
  clear hL
  induction L with
  | nil => rfl
  | cons p L ih =>
    rw [List.map_cons, List.mapM_cons, ih fun _ => hst (by simp)]
    simp only [Buf.read_val (hst (by simp)), Res.bind_ok]
    rfl

theorem seen (h : BRep A m l) : Bag.Seen A m (↑l) where
  len := by rw [Multiset.coe_card, h.eq]; simp [StatMap.len]
  isEmpty := by rw [h.eq]; simp [StatMap.isEmpty]
  get_absent q s ha := by
    rcases h.cases_key q s with ⟨pre, v, post, e, -⟩ | ⟨_, _, _, _, hg, -⟩
    · exact absurd rfl (ha ⟨⟨s, q⟩, v⟩ (by rw [e]; simp))
    · exact hg
  get_some q s ha := by
    rcases h.cases_key q s with ⟨pre, v, post, e, hg, -⟩ | ⟨_, _, _, hno, -⟩
    · exact ⟨v, by rw [e]; simp, hg⟩
    · exact absurd (fun x hx => hno x hx) ha
  iter s := by
    obtain ⟨L, h1, h2, h3, h4⟩ := h.statList s
    exact ⟨L, h.iter s h1 h4, h3, by rw [h2, Multiset.filter_coe]⟩

/-- a whole history -/
theorem run (h : BRep A m l) (os : List (MultiOp E Q)) :
    match StatMap.multiRun A m os with
    | .ok m' => ∃ l', BRep A m' l' ∧ Bag.Run (↑l) os (↑l')
    | .error e => ∃ pre o post b, os = pre ++ o :: post ∧ Bag.Run (↑l) pre b ∧ Bag.MultiFails b e o := by
  induction os generalizing m l with
  | nil => exact ⟨l, h, .nil _⟩
  | cons o os ih =>
    have hs := h.step o
    unfold StatMap.multiRun
    cases hr : StatMap.multiStep A m o with
    | error e => rw [hr] at hs; exact ⟨[], o, os, _, rfl, .nil _, hs⟩
    | ok m' =>
      rw [hr] at hs
      obtain ⟨l', h1, h2⟩ := hs
      have := ih h1
      show match StatMap.multiRun A m' os with
        | .ok m' => ∃ l', BRep A m' l' ∧ Bag.Run (↑l) (o :: os) (↑l')
        | .error e => ∃ pre o' post b, o :: os = pre ++ o' :: post ∧ Bag.Run (↑l) pre b ∧ Bag.MultiFails b e o'
      cases hh : StatMap.multiRun A m' os with
      | ok m'' =>
        rw [hh] at this
        obtain ⟨l'', h3, h4⟩ := this
        exact ⟨l'', h3, .cons h2 h4⟩
      | error e =>
        rw [hh] at this
        obtain ⟨pre, o', post, b, rfl, h4, h5⟩ := this
        exact ⟨o :: pre, o', post, b, rfl, .cons h2 h4, h5⟩

end BRep

/-- **C74** After any history of calls, `from_iter` and `extend` with repeated keys included, the map is a multimap:
each call changed the contents as the multimap would, and the reading methods show those contents.  A call that does
not return fails because the caller's own code fails or because values of the stat cannot be stored. -/
theorem C74_multimap (h : List (MultiOp E Q)) :
    match StatMap.multiRun A [] h with
    | .ok m => ∃ b, Bag.Run 0 h b ∧ b.Seen A m
    | .error e => ∃ pre o post b, h = pre ++ o :: post ∧ Bag.Run 0 pre b ∧ Bag.MultiFails b e o := by
  have := (BRep.nil (E := E) (Q := Q) (A := A)).run h
  cases hr : StatMap.multiRun A [] h with
  | error e => rw [hr] at this; exact this
  | ok m =>
    rw [hr] at this
    obtain ⟨l, h1, h2⟩ := this
    exact ⟨_, h2, h1.seen⟩

/-- **C74** `remove` returns the value that it takes out, and `none` only if there is none. -/
theorem C74_remove (h : List (MultiOp E Q)) (m : StatMap E Q) (hm : StatMap.multiRun A [] h = .ok m)
    (q : Qualifier Q) (s : StatInst E) :
    ∃ b m' r, Bag.Run 0 h b ∧ b.Seen A m ∧ StatMap.remove A m q s = .ok (m', r) ∧
      match r with
      | none => b.Absent ⟨s, q⟩ ∧ m' = m
      | some v => ∃ b' : Bag E Q, b = (⟨⟨s, q⟩, v⟩ : Keyed E Q) ::ₘ b' ∧ b'.Seen A m' := by
  have := (BRep.nil (E := E) (Q := Q) (A := A)).run h
  rw [hm] at this
  obtain ⟨l, r, hr⟩ := this
  unfold StatMap.remove
  rcases r.cases_key q s with ⟨pre, u, post, rfl, -, hp, hs, -⟩ | ⟨pre, post, rfl, ha, -, hp, -⟩
  · rw [hp]
    simp only [StatMap.readAs, Buf.read_val hs, Res.bind_ok]
    exact ⟨_, _, _, hr, r.seen, rfl, _, BRep.perm_swap, r.removed.seen⟩
  · rw [hp]
    exact ⟨_, _, _, hr, r.seen, rfl, fun x hx => ha x hx, rfl⟩

/-- **C74** so repeated keys never lead to undefined behaviour -/
theorem C74_no_ub (hE : E.NoUb) (h : List (MultiOp E Q)) (hh : ∀ o, .one o ∈ h → o.NoUb) :
    StatMap.multiRun A [] h ≠ .error .ub := by
  intro he
  have := C74_multimap A h
  rw [he] at this
  obtain ⟨pre, o, post, b, rfl, -, hf⟩ := this
  cases o with
  | extend T its => exact absurd hf.2.2 (by simp)
  | collect T its => exact absurd hf.2.2 (by simp)
  | one o =>
    have ho := hh o (by simp)
    cases o with
    | insert q s v => exact absurd hf.2 (by simp)
    | insertBase q s v => exact absurd hf.2 (by simp)
    | modify q s o =>
      rcases hf with ⟨v, -, h1⟩ | ⟨-, h1 | ⟨-, -, h1⟩⟩
      · exact hE.write _ _ _ h1
      · exact hE.write _ _ _ h1
      · cases h1
    | modifyWith q s f =>
      rcases hf with ⟨v, -, h1⟩ | ⟨-, h1 | ⟨-, -, h1⟩⟩
      · exact ho _ h1
      · exact ho _ h1
      · cases h1
    | getMut q s f =>
      obtain ⟨v, -, h1⟩ := hf
      exact ho _ h1
    | iterMut => exact hf
    | remove => exact hf
    | removeAll => exact hf
    | clear => exact hf

section query
variable {Q : Type} [BitFlags Q] [FlagSet Q] [Ord Q] [Std.TransOrd Q] [Std.LawfulEqOrd Q]

open Classical in
/-- **C74** A query joins into the default the values of all matching entries, repeated keys included, in the order
in which `iter` gives them. -/
theorem C74_query (h : List (MultiOp E Q)) (m : StatMap E Q) (hm : StatMap.multiRun A [] h = .ok m)
    (query : QualifierQuery Q) (s : StatInst E) (hs : Storable (E.layout s.ty)) :
    ∃ L : List (Qualifier Q × s.Val), StatMap.iter A m s = .ok L ∧
      StatMap.queryStat A m query s =
        joinList s.sv s.sv.default ((L.filter (fun p => FlagSpec.Matches p.1 query)).map (·.2)) ∧
      StatMap.evalStat A m query s =
        (joinList s.sv s.sv.default ((L.filter (fun p => FlagSpec.Matches p.1 query)).map (·.2)) >>= s.sv.eval) := by
  have := (BRep.nil (E := E) (Q := Q) (A := A)).run h
  rw [hm] at this
  obtain ⟨l, r, -⟩ := this
  obtain ⟨L, h1, h2, h3, h4⟩ := r.statList s
  have hf : L.filter (fun p => decide (FlagSpec.Matches p.1 query)) = L.filter (fun p => p.1.qualifiesAs query) := by
    refine List.filter_congr fun p _ => ?_
    rw [Bool.eq_iff_iff, decide_eq_true_iff, matches_iff]
  have hq : StatMap.queryStat A m query s =
      joinList s.sv s.sv.default ((L.filter (fun p => p.1.qualifiesAs query)).map (·.2)) := by
    unfold StatMap.queryStat Pair.newDefault Pair.new StatMap.streamStat
    rw [Buf.from_eq, if_pos hs]
    simp only [Res.bind_ok, Vec.slice_le r.stat_le, h1]
    have := joinEntries_eq s.vt hs query s.index L s.sv.default
    rw [this]
    cases joinList s.sv s.sv.default ((L.filter (fun p => p.1.qualifiesAs query)).map (·.2)) with
    | error e => rfl
    | ok z => exact Buf.read_val hs z
  refine ⟨L, r.iter s h1 h4, by rw [hf]; exact hq, ?_⟩
  rw [hf]
  unfold StatMap.evalStat
  rw [hq]

end query

/-- **C12** exactly when it holds: extending a map is the same as inserting the items one by one if and only if no
key is repeated, neither among the items nor between items and map. -/
theorem C12_extend_iff (h : List (MapOp E Q)) (m : StatMap E Q) (hm : StatMap.run A h = .ok m) (T : E.S)
    (hs : Storable (E.layout (E.valTy T))) (items : List (Qualifier Q × Nat × E.El (E.valTy T))) :
    StatMap.extend A m T items = StatMap.runFrom A m (MapOp.insertItems T items) ↔
      (m.map (fun e => (⟨e.stat, e.qual⟩ : Key E Q)) ++
        items.map (fun t => (⟨⟨T, t.2.1⟩, t.1⟩ : Key E Q))).Nodup := by
  refine ⟨fun he => ?_, C12_extend_is_insertion_partial A h m hm T items⟩
  have hrun : StatMap.run A (h ++ MapOp.insertItems T items) = StatMap.runFrom A m (MapOp.insertItems T items) := by
    have : ∀ (h : List (MapOp E Q)) (m0 m : StatMap E Q) (h' : List (MapOp E Q)),
        StatMap.runFrom A m0 h = .ok m → StatMap.runFrom A m0 (h ++ h') = StatMap.runFrom A m h' := by
      intro h
      induction h with
      | nil => intro m0 m h' e; cases e; rfl
      | cons o h ih =>
        intro m0 m h' e
        simp only [StatMap.runFrom, Res.bind_eq_ok] at e
        obtain ⟨m1, e1, e2⟩ := e
        simp only [List.cons_append, StatMap.runFrom, e1, Res.bind_ok]
        exact ih m1 m h' e2
    exact this h _ m _ hm
  unfold StatMap.extend at he
  rw [BRep.entries, if_pos (.inr hs), Res.bind_ok, ← hrun] at he
  have hn := (C07_sorted_and_unique A _ _ he.symm).2.1
  have hp : (Vec.sorted A (m ++ (BRep.items T items).map Keyed.entry)).Perm
      (m ++ (BRep.items T items).map Keyed.entry) := List.mergeSort_perm _ _
  have := (hp.map (fun e => (⟨e.stat, e.qual⟩ : Key E Q))).nodup_iff.1 hn
  rw [List.map_append, List.map_map] at this
  simpa [BRep.items, Function.comp_def, Keyed.entry] using this

/-- C74 on a concrete history: two entries under one key; both are joined, each removal takes one. -/
example : let i : List (Qualifier (BitVec 8) × Nat × StatInt) :=
      [(⟨0, 0⟩, 0, ⟨3, 0, 100, 1⟩), (⟨0, 0⟩, 0, ⟨4, 0, 100, 1⟩)]
    (StatMap.multiRun demoAddr [] [.collect (E := demo) true i, .one (.remove ⟨0, 0⟩ (demoInt 0))] >>= fun m =>
      StatMap.evalStat demoAddr m QualifierQuery.none (demoInt 0)) = .ok (3 : Int) ∧
    (StatMap.multiRun demoAddr [] [.collect (E := demo) true i, .one (.remove ⟨0, 0⟩ (demoInt 0)),
      .one (.remove ⟨0, 0⟩ (demoInt 0))]).map StatMap.len = .ok 0 := by
  intro i
  have h2 : ∀ l : Vec demo (BitVec 8) (Buf demo), l.Pairwise (fun a b => (a.sort demoAddr b != .gt) = true) →
      Vec.sorted demoAddr l = l := fun l hl => List.mergeSort_of_pairwise hl
  have h3 := h2 [⟨demoInt 0, ⟨0, 0⟩, .val true ⟨3, 0, 100, 1⟩⟩, ⟨demoInt 0, ⟨0, 0⟩, .val true ⟨4, 0, 100, 1⟩⟩]
    (by simp; decide)
  have h4 : StatMap.fromIter demoAddr true i =
      .ok [⟨demoInt 0, ⟨0, 0⟩, .val true ⟨3, 0, 100, 1⟩⟩, ⟨demoInt 0, ⟨0, 0⟩, .val true ⟨4, 0, 100, 1⟩⟩] :=
    congrArg Except.ok h3
  simp only [StatMap.multiRun, StatMap.multiStep, h4]
  exact ⟨rfl, rfl⟩

end BSQ
