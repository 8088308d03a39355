import Verif.Proofs.StatMap
import Verif.Proofs.Qualifier
import Verif.Spec.Demo
import Verif.Spec.Misc
import Mathlib.Data.List.Dedup
/-!
# C06–C12, C35, C37: `StatMap` as a map, and stat identity

`A` is any assignment of vtable addresses, `Q` any qualifier type with a lawful total order.
-/
set_option linter.unusedSectionVars false
namespace BSQ
variable {E : Env} {Q : Type} [DecidableEq Q] [Ord Q] [Std.TransOrd Q] [Std.LawfulEqOrd Q] (A : Addr E)

/-- **C06** After any history the code and a plain map that received the same history fail alike or both
succeed, and then every observer agrees: `get`, `get_evaled`, `remove`, `len`, `is_empty`, `clone`. -/
theorem C06_behaves_as_map (h : List (MapOp E Q)) :
    match StatMap.run A h, PMap.run h with
    | .ok m, .ok a =>
      (∀ q s, StatMap.get A m q s = .ok (a ⟨s, q⟩)) ∧
      (∀ q s, StatMap.getEvaled A m q s =
        match a ⟨s, q⟩ with
        | none => .ok none
        | some v => s.sv.eval v >>= fun o => .ok (some o)) ∧
      (∀ q s, ∃ m', StatMap.remove A m q s = .ok (m', a ⟨s, q⟩) ∧
        StatMap.run A (h ++ [.remove q s]) = .ok m') ∧
      a.HasSize (StatMap.len m) ∧
      (StatMap.isEmpty m = true ↔ ∀ k, a k = none) ∧
      StatMap.clone m = .ok m
    | .error e, .error e' => e = e'
    | _, _ => False := by
  have key := Rep.run (A := A) h
  revert key
  cases hm : StatMap.run A h with
  | error e => cases PMap.run h <;> exact id
  | ok m =>
    cases ha : PMap.run h with
    | error e => exact id
    | ok a =>
      intro (r : Rep A m a)
      refine ⟨r.get, fun q s => ?_, fun q s => ⟨_, (r.pull q s).1, ?_⟩, r.hasSize, ?_, r.clone⟩
      · unfold StatMap.getEvaled
        rw [r.get]
        simp only [Res.bind_ok]
        cases a ⟨s, q⟩ <;> rfl
      · have happ : ∀ (m₀ : StatMap E Q) (h : List (MapOp E Q)) (o : MapOp E Q),
            StatMap.runFrom A m₀ (h ++ [o]) = (StatMap.runFrom A m₀ h >>= fun m => StatMap.step A m o) := by
          intro m₀ h o
          induction h generalizing m₀ with
          | nil =>
            simp only [List.nil_append, StatMap.runFrom, Res.bind_ok]
            cases StatMap.step A m₀ o <;> rfl
          | cons x h ih =>
            simp only [List.cons_append, StatMap.runFrom]
            cases StatMap.step A m₀ x with
            | error e => rfl
            | ok m' => exact ih m'
        unfold StatMap.run at hm ⊢
        rw [happ, hm]
        simp only [Res.bind_ok, StatMap.step, (r.pull q s).1]
      · obtain ⟨ks, hn, hk, hl⟩ := r.hasSize
        have : StatMap.isEmpty m = true ↔ ks = [] := by
          rw [← List.length_eq_zero_iff, hl]
          simp [StatMap.isEmpty, StatMap.len]
        rw [this]
        constructor
        · intro he k
          cases hc : a k with
          | none => rfl
          | some v =>
            have := (hk k).2 (by rw [hc]; rfl)
            rw [he] at this
            simp at this
        · intro hnone
          rw [List.eq_nil_iff_forall_not_mem]
          intro k hk'
          have := (hk k).1 hk'
          rw [hnone] at this
          simp at this

/-- C06 on a concrete history over two stat types: overwriting, in-place modification and removal. -/
example : (StatMap.run demoAddr (Q := BitVec 8)
    [.insert ⟨1, 0⟩ (demoInt 0) ⟨5, 0, 100, 1⟩, .insertBase ⟨0, 0⟩ (demoFlag 3) 6#8,
     .insert ⟨0, 0⟩ (demoInt 1) ⟨7, 0, 100, 1⟩, .modify ⟨1, 0⟩ (demoInt 0) (.add (4 : Int)),
     .remove ⟨0, 0⟩ (demoInt 1)] >>= fun m =>
      (StatMap.getEvaled demoAddr m ⟨1, 0⟩ (demoInt 0) >>= fun a =>
       StatMap.getEvaled demoAddr m ⟨0, 0⟩ (demoInt 1) >>= fun b =>
       StatMap.getEvaled demoAddr m ⟨0, 0⟩ (demoFlag 3) >>= fun c => .ok (a, b, c, m.length)))
    = .ok (some (9 : Int), none, some 6#8, 2) := by rfl

/-- **C07** Reachable maps hold each key at most once, in strictly ascending order, and `len` counts the
distinct keys. -/
theorem C07_sorted_and_unique (h : List (MapOp E Q)) (m : StatMap E Q) (hm : StatMap.run A h = .ok m) :
    (m.map (fun e => (⟨e.stat, e.qual⟩ : Key E Q))).Pairwise (KeyBefore A) ∧
    (m.map (fun e => (⟨e.stat, e.qual⟩ : Key E Q))).Nodup ∧
    StatMap.len m = (m.map (fun e => (⟨e.stat, e.qual⟩ : Key E Q))).dedup.length := by
  have key := Rep.run (A := A) h
  rw [hm] at key
  cases ha : PMap.run h with
  | error e => rw [ha] at key; exact key.elim
  | ok a =>
    rw [ha] at key
    have r : Rep A m a := key
    refine ⟨?_, r.sorted.nodup, ?_⟩
    · refine List.Pairwise.imp ?_ r.sorted
      intro x y hxy
      simp only [Vec.KLt, Key.cmp, StatInst.cmp, Qualifier.cmp, Ordering.then_eq_lt, Nat.compare_eq_lt,
        Ordering.then_eq_eq, Nat.compare_eq_eq] at hxy
      unfold KeyBefore KeyBefore.QualBefore
      rcases hxy with (h1 | ⟨h1, h2⟩) | ⟨⟨h1, h2⟩, h3 | ⟨h3, h4⟩⟩
      · exact .inl h1
      · exact .inr ⟨A.inj h1, .inl h2⟩
      · exact .inr ⟨A.inj h1, .inr ⟨h2, .inl h3⟩⟩
      · exact .inr ⟨A.inj h1, .inr ⟨h2, .inr ⟨Std.LawfulEqCmp.eq_of_compare h3, h4⟩⟩⟩
    · rw [List.Nodup.dedup r.sorted.nodup]
      simp [StatMap.len]

/-- what is stored for one stat, in ascending qualifier order -/
theorem statList {m : StatMap E Q} {a : PMap E Q} (r : Rep A m a) (s : StatInst E) :
    ∃ L : List (Qualifier Q × s.Val),
      m.filter (fun e => decide (e.stat = s)) = L.map (fun p => ⟨s, p.1, .val s.ty p.2⟩) ∧
      (L.map (·.1)).Pairwise KeyBefore.QualBefore ∧
      (∀ q v, (q, v) ∈ L ↔ a ⟨s, q⟩ = some v) ∧ (L ≠ [] → Storable (E.layout s.ty)) := by
  have hex : ∀ l : StatMap E Q, (∀ e ∈ l, e ∈ m ∧ e.stat = s) →
      ∃ L : List (Qualifier Q × s.Val), l = L.map (fun p => ⟨s, p.1, .val s.ty p.2⟩) := by
    intro l
    induction l with
    | nil => intro _; exact ⟨[], rfl⟩
    | cons e l ih =>
      intro hl
      obtain ⟨L, hL⟩ := ih (fun y hy => hl y (by simp [hy]))
      obtain ⟨he, hs⟩ := hl e (by simp)
      obtain ⟨x, _, hx, _⟩ := r.mem he
      subst hs
      refine ⟨(e.qual, x) :: L, ?_⟩
      rw [List.map_cons, ← hL]
      cases e
      simp only at hx
      rw [hx]
  obtain ⟨L, hL⟩ := hex (m.filter (fun e => decide (e.stat = s))) (by simp)
  have hsort : Vec.Sorted A (m.filter (fun e => decide (e.stat = s))) := Vec.sorted_filter r.sorted _
  have hmem : ∀ q v, (q, v) ∈ L ↔ a ⟨s, q⟩ = some v := by
    intro q v
    have h1 : (q, v) ∈ L ↔ (⟨s, q, .val s.ty v⟩ : Entry E Q (Buf E)) ∈ m := by
      have : (⟨s, q, .val s.ty v⟩ : Entry E Q (Buf E)) ∈ m ↔
          (⟨s, q, .val s.ty v⟩ : Entry E Q (Buf E)) ∈ m.filter (fun e => decide (e.stat = s)) := by simp
      rw [this, hL, List.mem_map]
      constructor
      · intro h; exact ⟨_, h, rfl⟩
      · rintro ⟨p, hp, he⟩
        injection he with _ h2 h3
        injection h3 with _ h4
        obtain ⟨p1, p2⟩ := p
        simp only at h2 h4
        rw [← h2, ← h4]
        exact hp
    rw [h1, Vec.mem_iff_lookup r.sorted, r.holds]
    simp only [Option.map_eq_some_iff]
    constructor
    · rintro ⟨x, hx, he⟩
      injection he with _ h4
      rw [hx, h4]
    · intro h; exact ⟨v, h, rfl⟩
  refine ⟨L, hL, ?_, hmem, ?_⟩
  · rw [hL] at hsort
    unfold Vec.Sorted at hsort
    rw [List.map_map] at hsort
    rw [List.pairwise_map] at hsort ⊢
    refine hsort.imp ?_
    intro x y hxy
    have hc : (s.cmp A s).then (x.1.cmp y.1) = .lt := hxy
    rw [Std.ReflCmp.compare_self (cmp := StatInst.cmp A)] at hc
    simp only [Ordering.eq_then, Qualifier.cmp, Ordering.then_eq_lt] at hc
    rcases hc with h3 | ⟨h3, h4⟩
    · exact .inl h3
    · exact .inr ⟨Std.LawfulEqCmp.eq_of_compare h3, h4⟩
  · intro hne
    obtain ⟨p, hp⟩ := List.exists_mem_of_ne_nil _ hne
    exact r.storable ⟨s, p.1⟩ (by rw [(hmem p.1 p.2).1 hp]; rfl)

theorem reachRep {h : List (MapOp E Q)} {m : StatMap E Q} (hm : StatMap.run A h = .ok m) :
    ∃ a, PMap.run h = .ok a ∧ Rep A m a := by
  have key := Rep.run (A := A) h
  rw [hm] at key
  cases ha : PMap.run h with
  | error e => rw [ha] at key; exact key.elim
  | ok a => rw [ha] at key; exact ⟨a, rfl, key⟩

section query
variable {Q : Type} [BitFlags Q] [FlagSet Q] [Ord Q] [Std.TransOrd Q] [Std.LawfulEqOrd Q]
open FlagSpec

theorem matches_iff (q : Qualifier Q) (query : QualifierQuery Q) :
    q.qualifiesAs query = true ↔ Matches q query := by
  cases query with
  | aggregate x => exact aggregate_iff q x
  | exact a b => exact exact_iff q a b

theorem joinEntries_eq (T : E.S) (hs : Storable (E.layout (E.valTy T))) (query : QualifierQuery Q)
    (i : Nat) (L : List (Qualifier Q × E.El (E.valTy T))) (v : E.El (E.valTy T)) :
    StatMap.joinEntries T query
      (L.map (fun p => (⟨⟨T, i⟩, p.1, .val (E.valTy T) p.2⟩ : Entry E Q (Buf E)))) (.val (E.valTy T) v) =
    (joinList (E.sv (E.valTy T)) v ((L.filter (fun p => p.1.qualifiesAs query)).map (·.2)) >>= fun z =>
      .ok (.val (E.valTy T) z)) := by
  induction L generalizing v with
  | nil => rfl
  | cons p L ih =>
    simp only [List.map_cons, StatMap.joinEntries]
    by_cases hq : p.1.qualifiesAs query = true
    · rw [if_pos hq, List.filter_cons_of_pos (by simpa using hq), vtJoin_val hs]
      simp only [List.map_cons, joinList]
      cases (E.sv (E.valTy T)).join v p.2 with
      | error e => rfl
      | ok z => exact ih z
    · rw [if_neg hq, List.filter_cons_of_neg (by simpa using hq)]
      exact ih v

/-- **C08** Querying a map joins into the default the values of exactly the entries of the queried stat whose
qualifier matches the query, each once, in ascending qualifier order; `eval_stat` evaluates that. -/
theorem C08_query_joins_matching (h : List (MapOp E Q)) (m : StatMap E Q) (hm : StatMap.run A h = .ok m)
    (query : QualifierQuery Q) (s : StatInst E) (hs : Storable (E.layout s.ty)) :
    ∃ (a : PMap E Q) (L : List (Qualifier Q × s.Val)), PMap.run h = .ok a ∧
      (L.map (·.1)).Pairwise KeyBefore.QualBefore ∧ L.Nodup ∧
      (∀ q v, (q, v) ∈ L ↔ a ⟨s, q⟩ = some v ∧ Matches q query) ∧
      StatMap.queryStat A m query s = joinList s.sv s.sv.default (L.map (·.2)) ∧
      StatMap.evalStat A m query s =
        (joinList s.sv s.sv.default (L.map (·.2)) >>= fun v => s.sv.eval v) := by
  obtain ⟨a, ha, r⟩ := reachRep A hm
  obtain ⟨L, hL, hp, hmem, _⟩ := statList A r s
  have hpf : ((L.filter (fun p => p.1.qualifiesAs query)).map (·.1)).Pairwise KeyBefore.QualBefore := by
    rw [List.pairwise_map] at hp ⊢
    exact hp.sublist List.filter_sublist
  have hq : StatMap.queryStat A m query s =
      joinList s.sv s.sv.default ((L.filter (fun p => p.1.qualifiesAs query)).map (·.2)) := by
    unfold StatMap.queryStat Pair.newDefault Pair.new StatMap.streamStat
    rw [Buf.from_eq, if_pos hs]
    simp only [Res.bind_ok, Vec.slice_eq r.sorted, hL]
    have := joinEntries_eq s.vt hs query s.index L s.sv.default
    rw [this]
    cases joinList s.sv s.sv.default ((L.filter (fun p => p.1.qualifiesAs query)).map (·.2)) with
    | error e => rfl
    | ok z => exact Buf.read_val hs z
  refine ⟨a, L.filter (fun p => p.1.qualifiesAs query), ha, hpf, ?_, fun q v => ?_, hq, ?_⟩
  · refine List.Nodup.of_map (fun p : Qualifier Q × s.Val => p.1) (hpf.imp ?_)
    rintro x _ hxy rfl
    rcases hxy with h | ⟨_, h⟩
    · exact absurd h (by simp)
    · exact absurd h (by simp)
  · rw [List.mem_filter, hmem, matches_iff]
  · unfold StatMap.evalStat
    rw [hq]

/-- C08: a stat whose value type cannot be stored cannot be queried at all. -/
theorem C08_unstorable_panics (m : StatMap E Q) (query : QualifierQuery Q) (s : StatInst E)
    (hs : ¬ Storable (E.layout s.ty)) : StatMap.queryStat A m query s = .error .panic := by
  unfold StatMap.queryStat Pair.newDefault Pair.new
  rw [Buf.from_eq, if_neg hs]
  rfl

/-- C08 on a concrete map: of three entries of the stat and one of another stat, two match. -/
example : (StatMap.run demoAddr (Q := BitVec 8)
    [.insert ⟨0, 1⟩ (demoInt 0) ⟨5, 0, 100, 1⟩, .insert ⟨0, 0⟩ (demoInt 0) ⟨6, 0, 100, 2⟩,
     .insert ⟨4, 0⟩ (demoInt 0) ⟨7, 0, 100, 1⟩, .insert ⟨0, 0⟩ (demoInt 1) ⟨8, 0, 100, 1⟩] >>= fun m =>
      StatMap.evalStat demoAddr m (.aggregate 3#8) (demoInt 0)) = .ok (22 : Int) := by rfl
end query

/-- **C09** A reachable map is determined by what is stored under each key: two histories (even in maps
built differently) with the same final values give identical maps, hence identical answers everywhere. -/
theorem C09_determined_by_values (h h' : List (MapOp E Q)) (m m' : StatMap E Q)
    (hm : StatMap.run A h = .ok m) (hm' : StatMap.run A h' = .ok m')
    (heq : ∀ q s, StatMap.get A m q s = StatMap.get A m' q s) : m = m' := by
  obtain ⟨a, _, r⟩ := reachRep A hm
  obtain ⟨a', _, r'⟩ := reachRep A hm'
  have : a = a' := by
    funext k
    have := heq k.qual k.stat
    rw [r.get, r'.get] at this
    exact Except.ok.inj this
  subst this
  exact r.ext r'

theorem PMap.store_comm (a : PMap E Q) {j k : Key E Q} (hjk : j ≠ k) (v : j.Val) (w : k.Val) :
    (a.store j v >>= fun b => b.store k w) = (a.store k w >>= fun b => b.store j v) := by
  unfold PMap.store
  by_cases h1 : Storable (E.layout j.stat.ty) <;> by_cases h2 : Storable (E.layout k.stat.ty)
  · simp only [h1, h2, if_true, Res.bind_ok, Except.ok.injEq]
    funext i
    unfold PMap.set
    by_cases hi : i = j
    · subst hi; simp [hjk]
    · by_cases hi' : i = k
      · subst hi'; simp [hi]
      · simp [hi, hi']
  · simp [h1, h2]
  · simp [h1, h2]
  · simp [h1, h2]

theorem PMap.inserts_perm {ts ts' : List ((k : Key E Q) × k.Val)} (hp : ts.Perm ts')
    (hn : (ts.map (·.1)).Nodup) (a : PMap E Q) :
    a.runFrom (MapOp.inserts ts) = a.runFrom (MapOp.inserts ts') := by
  induction hp generalizing a with
  | nil => rfl
  | cons x _ ih =>
    simp only [List.map_cons, List.nodup_cons] at hn
    simp only [MapOp.inserts, List.map_cons, PMap.runFrom]
    cases PMap.step a (.insert x.1.qual x.1.stat x.2) with
    | error e => rfl
    | ok b => exact ih hn.2 b
  | swap x y l =>
    simp only [List.map_cons, List.nodup_cons, List.mem_cons, not_or] at hn
    simp only [MapOp.inserts, List.map_cons, PMap.runFrom, PMap.step]
    have e1 := PMap.store_comm a (fun h => hn.1.1 h) y.2 x.2
    have : ∀ (u v : Res (PMap E Q)), u = v → (u >>= fun m' => m'.runFrom (MapOp.inserts l)) =
        (v >>= fun m' => m'.runFrom (MapOp.inserts l)) := by rintro u _ rfl; rfl
    have e2 := this _ _ e1
    simp only [bind_assoc] at e2
    exact e2
  | trans h1 _ ih1 ih2 =>
    rw [ih1 hn, ih2 ((h1.map _).nodup_iff.1 hn)]

/-- **C09** Inserting the same triples, with distinct keys, in any order gives the same result: both panic
(when a value type is not storable) or both give the same map. -/
theorem C09_insertion_order_irrelevant (ts ts' : List ((k : Key E Q) × k.Val)) (hp : ts.Perm ts')
    (hn : (ts.map (·.1)).Nodup) :
    StatMap.run A (MapOp.inserts ts) = StatMap.run A (MapOp.inserts ts') := by
  have h1 := Rep.run (A := A) (MapOp.inserts ts)
  have h2 := Rep.run (A := A) (MapOp.inserts ts')
  have he : PMap.run (MapOp.inserts ts) = PMap.run (MapOp.inserts ts') := PMap.inserts_perm hp hn _
  rw [he] at h1
  cases hx : StatMap.run A (MapOp.inserts ts) <;> cases hy : StatMap.run A (MapOp.inserts ts') <;>
    cases hz : PMap.run (MapOp.inserts ts') <;> rw [hx, hz] at h1 <;> rw [hy, hz] at h2
  · exact congrArg _ ((show _ = _ from h1).trans (show _ = _ from h2).symm)
  · exact h1.elim
  · exact h2.elim
  · exact h1.elim
  · exact h1.elim
  · exact h2.elim
  · exact h1.elim
  · exact congrArg _ (Rep.ext h1 h2)

/-- C09: three insertions in two orders -/
example : ∃ m, StatMap.run demoAddr (Q := BitVec 8)
      [.insert ⟨0, 0⟩ (demoInt 2) ⟨5, 0, 9, 1⟩, .insert ⟨1, 0⟩ (demoFlag 0) ⟨1, 2⟩,
       .insert ⟨3, 0⟩ (demoInt 2) ⟨6, 0, 9, 1⟩] = .ok m ∧ m.length = 3 ∧
    StatMap.run demoAddr (Q := BitVec 8)
      [.insert ⟨3, 0⟩ (demoInt 2) ⟨6, 0, 9, 1⟩, .insert ⟨1, 0⟩ (demoFlag 0) ⟨1, 2⟩,
       .insert ⟨0, 0⟩ (demoInt 2) ⟨5, 0, 9, 1⟩] = .ok m := ⟨_, rfl, rfl, rfl⟩

/-- **C10** `iter` yields exactly the entries of one stat, once each, in ascending qualifier order. -/
theorem C10_iter (h : List (MapOp E Q)) (m : StatMap E Q) (hm : StatMap.run A h = .ok m) (s : StatInst E) :
    ∃ L : List (Qualifier Q × s.Val), StatMap.iter A m s = .ok L ∧
      (L.map (·.1)).Pairwise KeyBefore.QualBefore ∧ L.Nodup ∧
      ∀ q v, (q, v) ∈ L ↔ StatMap.get A m q s = .ok (some v) := by
  obtain ⟨a, ha, r⟩ := reachRep A hm
  obtain ⟨L, hL, hp, hmem, hst⟩ := statList A r s
  refine ⟨L, ?_, hp, ?_, fun q v => ?_⟩
  · unfold StatMap.iter
    rw [Vec.slice_eq r.sorted, hL]
    simp only [Res.bind_ok]
    have : ∀ L : List (Qualifier Q × s.Val), (L ≠ [] → Storable (E.layout s.ty)) →
        (L.map (fun p => (⟨s, p.1, .val s.ty p.2⟩ : Entry E Q (Buf E)))).mapM (fun e => (do
          let v ← e.buf.read s.ty
          .ok (e.qual, v) : Res _)) = .ok L := by
      intro L hst
      induction L with
      | nil => rfl
      | cons p L ih =>
        rw [List.map_cons, List.mapM_cons, ih (fun _ => hst (by simp)), Buf.read_val (hst (by simp))]
        rfl
    exact this L hst
  · refine List.Nodup.of_map (fun p : Qualifier Q × s.Val => p.1) (hp.imp ?_)
    rintro x _ hxy rfl
    rcases hxy with h | ⟨_, h⟩
    · exact absurd h (by simp)
    · exact absurd h (by simp)
  · rw [hmem, r.get]
    constructor
    · intro h; rw [h]
    · intro h; exact Except.ok.inj h

/-- the values a possibly panicking closure produces -/
def orSame {V : Type} (f : V → Res V) (v : V) : V :=
  match f v with
  | .ok w => w
  | .error _ => v

theorem mapM_outcome {α β : Type} (f : α → Res β) (l : List α) :
    (∃ r, l.mapM f = .ok r ∧ ∀ x ∈ l, ∃ y, f x = .ok y) ∨
    ∃ e x, l.mapM f = .error e ∧ x ∈ l ∧ f x = .error e := by
  induction l with
  | nil => exact .inl ⟨[], rfl, by simp⟩
  | cons x l ih =>
    rw [List.mapM_cons]
    cases hx : f x with
    | error e => exact .inr ⟨e, x, rfl, by simp, hx⟩
    | ok y =>
      rcases ih with ⟨r, hr, hall⟩ | ⟨e, z, hr, hz, hfz⟩
      · refine .inl ⟨y :: r, by rw [hr]; rfl, ?_⟩
        intro w hw
        rcases List.mem_cons.1 hw with rfl | hw
        · exact ⟨y, hx⟩
        · exact hall w hw
      · exact .inr ⟨e, z, by rw [hr]; rfl, by simp [hz], hfz⟩

/-- **C10** Writing through `iter_mut` with a closure that may panic: when all calls return, exactly the
values of that stat are replaced by the closure's results; otherwise the closure failed on a stored value. -/
theorem C10_iter_mut (h : List (MapOp E Q)) (m : StatMap E Q) (hm : StatMap.run A h = .ok m) (s : StatInst E)
    (f : s.Val → Res s.Val) :
    match StatMap.iterMut A m s f with
    | .ok m' =>
      (∀ q v, StatMap.get A m q s = .ok (some v) → ∃ v', f v = .ok v' ∧ StatMap.get A m' q s = .ok (some v')) ∧
      (∀ q, StatMap.get A m q s = .ok none → StatMap.get A m' q s = .ok none) ∧
      (∀ q t, t ≠ s → StatMap.get A m' q t = StatMap.get A m q t)
    | .error e => ∃ q v, StatMap.get A m q s = .ok (some v) ∧ f v = .error e := by
  obtain ⟨a, ha, r⟩ := reachRep A hm
  have hf : ∀ g : s.Val → Res s.Val, StatMap.iterMut A m s g = m.mapM (Vec.touch s (fun b => do
        let v ← b.read s.ty
        let v' ← g v
        .ok (.val s.ty v'))) := by
    intro g
    unfold StatMap.iterMut
    rw [Vec.sliceMut_eq r.sorted]
  have hone : ∀ (g : s.Val → Res s.Val) (e : Entry E Q (Buf E)), e ∈ m → ∀ hs : e.stat = s,
      ∃ v : s.Val, a ⟨s, e.qual⟩ = some v ∧ Vec.touch s (fun b => do
        let v ← b.read s.ty
        let v' ← g v
        .ok (.val s.ty v')) e = (g v >>= fun v' => .ok { e with buf := .val s.ty v' }) := by
    intro g e he hs
    obtain ⟨x, hx, hb, hst⟩ := r.mem he
    subst hs
    refine ⟨x, hx, ?_⟩
    simp only [Vec.touch, if_true, hb]
    rw [Buf.read_val hst]
    simp
  rcases mapM_outcome (Vec.touch s (fun b => do
        let v ← b.read s.ty
        let v' ← f v
        .ok (.val s.ty v'))) m with ⟨r', hr', hall⟩ | ⟨e, x, hr', hx, hfx⟩
  · -- all calls returned: same as the total closure
    have hsame : StatMap.iterMut A m s f = StatMap.iterMut A m s (fun v => .ok (orSame f v)) := by
      rw [hf, hf]
      have : ∀ l : StatMap E Q, (∀ e ∈ l, e ∈ m) →
          l.mapM (Vec.touch s (fun b => do
            let v ← b.read s.ty
            let v' ← f v
            .ok (.val s.ty v'))) =
          l.mapM (Vec.touch s (fun b => do
            let v ← b.read s.ty
            let v' ← (.ok (orSame f v) : Res s.Val)
            .ok (.val s.ty v'))) := by
        intro l
        induction l with
        | nil => intro _; rfl
        | cons e l ih =>
          intro hl
          rw [List.mapM_cons, List.mapM_cons, ih (fun y hy => hl y (by simp [hy]))]
          congr 1
          by_cases hs : e.stat = s
          · obtain ⟨v, hv, h1⟩ := hone f e (hl e (by simp)) hs
            obtain ⟨v2, hv2, h2⟩ := hone (fun v => .ok (orSame f v)) e (hl e (by simp)) hs
            obtain rfl : v = v2 := Option.some.inj (hv.symm.trans hv2)
            obtain ⟨y, hy⟩ := hall e (hl e (by simp))
            rw [h1] at hy ⊢
            rw [h2]
            obtain ⟨w, hw, _⟩ := Res.bind_eq_ok.1 hy
            simp [orSame, hw]
          · simp [Vec.touch, hs]
      exact this m (fun _ h => h)
    have hrel := r.iterMut s (orSame f)
    rw [hsame]
    cases hm' : StatMap.iterMut A m s (fun v => .ok (orSame f v)) with
    | error e => rw [hm'] at hrel; exact hrel.elim
    | ok m' =>
      rw [hm'] at hrel
      have r2 : Rep A m' (a.mapStat s (orSame f)) := hrel
      refine ⟨fun q v hv => ?_, fun q hv => ?_, fun q t ht => ?_⟩
      · rw [r.get] at hv
        have hv := Except.ok.inj hv
        have hbuf : Vec.lookup m ⟨s, q⟩ = some (.val s.ty v) := by rw [r.holds, hv]; rfl
        obtain ⟨e, he, hk, hb⟩ := Vec.mem_lookup hbuf
        have hes : e.stat = s := congrArg Key.stat hk
        have heq : e.qual = q := congrArg Key.qual hk
        obtain ⟨v2, hv2, h1⟩ := hone f e he hes
        rw [heq] at hv2
        obtain rfl : v = v2 := Option.some.inj (hv.symm.trans hv2)
        obtain ⟨y, hy⟩ := hall e he
        rw [h1] at hy
        obtain ⟨w, hw, _⟩ := Res.bind_eq_ok.1 hy
        refine ⟨w, hw, ?_⟩
        rw [r2.get]
        simp [PMap.mapStat, hv, orSame, hw]
      · rw [r.get] at hv
        have hv := Except.ok.inj hv
        rw [r2.get]
        simp [PMap.mapStat, hv]
      · rw [r2.get, r.get]
        simp [PMap.mapStat, ht]
  · rw [hf, hr']
    have hs : x.stat = s := by
      by_contra hne
      simp [Vec.touch, hne] at hfx
    obtain ⟨v, hv, h1⟩ := hone f x hx hs
    refine ⟨x.qual, v, by rw [r.get, hv], ?_⟩
    rw [h1] at hfx
    cases hfv : f v with
    | error e' => rw [hfv] at hfx; simpa using hfx
    | ok w => rw [hfv] at hfx; cases hfx

/-- C10: two entries of the stat are visited in qualifier order, others are not -/
example : (StatMap.run demoAddr (Q := BitVec 8)
    [.insert ⟨3, 0⟩ (demoInt 0) ⟨5, 0, 100, 1⟩, .insert ⟨0, 0⟩ (demoInt 1) ⟨6, 0, 100, 1⟩,
     .insert ⟨1, 0⟩ (demoInt 0) ⟨7, 0, 100, 1⟩] >>= fun m => StatMap.iter demoAddr m (demoInt 0))
    = .ok [(⟨1, 0⟩, ⟨7, 0, 100, 1⟩), (⟨3, 0⟩, ⟨5, 0, 100, 1⟩)] := by rfl

/-- **C11** An operation about one key leaves every other key's value unchanged. -/
theorem C11_other_keys_undisturbed (h : List (MapOp E Q)) (m m' : StatMap E Q)
    (hm : StatMap.run A h = .ok m) (o : MapOp E Q) (k : Key E Q) (ho : o.key = some k)
    (hm' : StatMap.step A m o = .ok m') (q : Qualifier Q) (s : StatInst E) (hne : (⟨s, q⟩ : Key E Q) ≠ k) :
    StatMap.get A m' q s = StatMap.get A m q s := by
  obtain ⟨a, _, r⟩ := reachRep A hm
  have hrel := r.step o
  rw [hm'] at hrel
  cases ha' : a.step o with
  | error e => rw [ha'] at hrel; exact hrel.elim
  | ok a' =>
    rw [ha'] at hrel
    have r' : Rep A m' a' := hrel
    rw [r'.get, r.get]
    congr 1
    have hset : ∀ v : k.Val, a.set k v ⟨s, q⟩ = a ⟨s, q⟩ := fun v => by simp [PMap.set, hne]
    have hstore : ∀ (v : k.Val) b, a.store k v = .ok b → b ⟨s, q⟩ = a ⟨s, q⟩ := by
      intro v b hb
      unfold PMap.store at hb
      split at hb
      · cases hb; exact hset v
      · cases hb
    cases o with
    | insert q' s' v =>
      obtain rfl := Option.some.inj ho
      exact hstore v a' ha'
    | insertBase q' s' b =>
      obtain rfl := Option.some.inj ho
      exact hstore _ a' ha'
    | modify q' s' o =>
      obtain rfl := Option.some.inj ho
      simp only [PMap.step] at ha'
      split at ha'
      · obtain ⟨v', _, hv'⟩ := Res.bind_eq_ok.1 ha'
        cases hv'; exact hset _
      · obtain ⟨v', _, hv'⟩ := Res.bind_eq_ok.1 ha'
        exact hstore _ _ hv'
    | modifyWith q' s' f =>
      obtain rfl := Option.some.inj ho
      simp only [PMap.step] at ha'
      split at ha'
      · obtain ⟨v', _, hv'⟩ := Res.bind_eq_ok.1 ha'
        cases hv'; exact hset _
      · obtain ⟨v', _, hv'⟩ := Res.bind_eq_ok.1 ha'
        exact hstore _ _ hv'
    | getMut q' s' f =>
      obtain rfl := Option.some.inj ho
      simp only [PMap.step] at ha'
      split at ha'
      · obtain ⟨v', _, hv'⟩ := Res.bind_eq_ok.1 ha'
        cases hv'; exact hset _
      · cases ha'; rfl
    | remove q' s' =>
      obtain rfl := Option.some.inj ho
      simp only [PMap.step, Except.ok.injEq] at ha'
      subst ha'
      simp [PMap.unset, hne]
    | iterMut _ _ => cases ho
    | removeAll _ => cases ho
    | clear => cases ho

/-- **C11** `remove_all` never fails, removes exactly the entries of its stat and keeps all others. -/
theorem C11_remove_all_exact (h : List (MapOp E Q)) (m : StatMap E Q) (hm : StatMap.run A h = .ok m)
    (s : StatInst E) :
    ∃ m', StatMap.removeAll A m s = .ok m' ∧ ∀ q t,
      StatMap.get A m' q t = if t = s then .ok none else StatMap.get A m q t := by
  obtain ⟨a, _, r⟩ := reachRep A hm
  have hrel := r.removeAll s
  cases hm' : StatMap.removeAll A m s with
  | error e => rw [hm'] at hrel; exact hrel.elim
  | ok m' =>
    rw [hm'] at hrel
    have r' : Rep A m' _ := hrel
    refine ⟨m', rfl, fun q t => ?_⟩
    rw [r'.get, r.get]
    split <;> rfl

/-- C11: hypotheses met by removing one of two keys -/
example : ∃ m m', StatMap.run demoAddr (Q := BitVec 8)
      [.insert ⟨0, 0⟩ (demoInt 2) ⟨5, 0, 9, 1⟩, .insert ⟨1, 0⟩ (demoInt 2) ⟨6, 0, 9, 1⟩] = .ok m ∧
    StatMap.step demoAddr m (.remove ⟨0, 0⟩ (demoInt 2)) = .ok m' ∧
    StatMap.get demoAddr m' ⟨1, 0⟩ (demoInt 2) = .ok (some ⟨6, 0, 9, 1⟩) ∧
    StatMap.get demoAddr m' ⟨0, 0⟩ (demoInt 2) = .ok none := ⟨_, _, rfl, rfl, rfl, rfl⟩

/-! ### bulk construction -/

/-- **C12 is refuted.** `from_iter` and `extend` keep repeated keys: both entries are stored (so `len` is 2
where insertion gives 1) and a query joins both, where insertion keeps only the last. -/
theorem C12_refuted_duplicates :
    let items : List (Qualifier (BitVec 8) × Nat × StatInt) :=
      [(⟨0, 0⟩, 0, ⟨3, 0, 100, 1⟩), (⟨0, 0⟩, 0, ⟨4, 0, 100, 1⟩)]
    ((StatMap.fromIter demoAddr true items).map StatMap.len = .ok 2 ∧
     (StatMap.run demoAddr (MapOp.insertItems (E := demo) true items)).map StatMap.len = .ok 1) ∧
    ((StatMap.fromIter demoAddr true items >>= fun m =>
        StatMap.evalStat demoAddr m QualifierQuery.none (demoInt 0)) = .ok (7 : Int) ∧
     (StatMap.run demoAddr (MapOp.insertItems (E := demo) true items) >>= fun m =>
        StatMap.evalStat demoAddr m QualifierQuery.none (demoInt 0)) = .ok (4 : Int)) ∧
    ((StatMap.run demoAddr (MapOp.insertItems (E := demo) true (items.take 1)) >>= fun m =>
        StatMap.extend demoAddr m true (items.drop 1)).map StatMap.len = .ok 2) := by
  have h2 : ∀ l : Vec demo (BitVec 8) (Buf demo), l.Pairwise (fun a b => (a.sort demoAddr b != .gt) = true) →
      Vec.sorted demoAddr l = l := fun l hl => List.mergeSort_of_pairwise hl
  have h3 := h2 [⟨demoInt 0, ⟨0, 0⟩, .val true ⟨3, 0, 100, 1⟩⟩, ⟨demoInt 0, ⟨0, 0⟩, .val true ⟨4, 0, 100, 1⟩⟩]
    (by simp; decide)
  refine ⟨⟨?_, rfl⟩, ⟨?_, rfl⟩, ?_⟩
  · exact congrArg (fun l => Except.ok (List.length l)) h3
  · exact (congrArg (fun l => StatMap.evalStat demoAddr l QualifierQuery.none (demoInt 0)) h3).trans rfl
  · exact congrArg (fun l => Except.ok (List.length l)) h3

theorem Vec.sorted_of_perm {B : Type} {m l : Vec E Q B} (hp : m.Perm l) (hn : (l.map Entry.key).Nodup)
    (hs : m.Pairwise (fun a b => (a.sort A b != .gt) = true)) : Vec.Sorted A m := by
  have hn' : (m.map Entry.key).Nodup := (hp.map _).nodup_iff.2 hn
  unfold Vec.Sorted
  rw [List.pairwise_map]
  have := (List.pairwise_map.1 hn').and hs
  refine this.imp ?_
  rintro a b ⟨hne, hle⟩
  have hle : Key.cmp A a.key b.key ≠ .gt := bne_iff_ne.1 hle
  unfold Vec.KLt
  cases hc : Key.cmp A a.key b.key with
  | lt => rfl
  | eq => exact absurd (Std.LawfulEqCmp.eq_of_compare hc) hne
  | gt => exact absurd hc hle

theorem Vec.sorted_mergeSort {B : Type} {l : Vec E Q B} (hn : (l.map Entry.key).Nodup) :
    Vec.Sorted A (Vec.sorted A l) := by
  refine Vec.sorted_of_perm A (List.mergeSort_perm _ _) hn ?_
  refine List.pairwise_mergeSort ?_ ?_ l
  · intro a b c hab hbc
    simp only [bne_iff_ne] at *
    have h1 : (Key.cmp A a.key b.key).isLE := Ordering.isLE_iff_ne_gt.2 hab
    have h2 : (Key.cmp A b.key c.key).isLE := Ordering.isLE_iff_ne_gt.2 hbc
    exact Ordering.isLE_iff_ne_gt.1 (Std.TransCmp.isLE_trans (cmp := Key.cmp A) h1 h2)
  · intro a b
    have : Key.cmp A b.key a.key = (Key.cmp A a.key b.key).swap := Std.OrientedCmp.eq_swap
    show (((Key.cmp A a.key b.key) != .gt) || (Key.cmp A b.key a.key != .gt)) = true
    rw [this]
    cases Key.cmp A a.key b.key <;> rfl

theorem Vec.eq_of_perm {B : Type} {m l : Vec E Q B} (h : Vec.Sorted A m) (h' : Vec.Sorted A l)
    (hp : m.Perm l) : m = l := by
  refine List.Perm.eq_of_pairwise (le := fun a b => Vec.KLt A a.key b.key) ?_ (List.pairwise_map.1 h)
    (List.pairwise_map.1 h') hp
  intro a b _ _ hab hba
  exact absurd rfl (hab.trans hba).ne

theorem Vec.put_perm {B : Type} {m : Vec E Q B} (h : Vec.Sorted A m) (q : Qualifier Q) (s : StatInst E)
    (b : B) (hn : (⟨s, q⟩ : Key E Q) ∉ m.map Entry.key) : (Vec.put A m q s b).1.Perm (m ++ [⟨s, q, b⟩]) := by
  rcases Vec.search_split h q s with ⟨pre, e, post, rfl, he, hs, hl, hr⟩ | ⟨pre, post, rfl, hs, hl, hr⟩
  · exact absurd (by rw [← he]; simp) hn
  · rw [Vec.put_absent b hs]
    simp only [List.append_assoc]
    exact List.Perm.append_left _ (List.perm_append_singleton _ _).symm

/-- **C12** (the part that holds): for items with pairwise distinct keys that are not yet in the map,
`extend` is exactly repeated insertion, panics included.  Missing: repeated keys, refuted above. -/
theorem C12_extend_is_insertion_partial (h : List (MapOp E Q)) (m : StatMap E Q)
    (hm : StatMap.run A h = .ok m) (T : E.S) (items : List (Qualifier Q × Nat × E.El (E.valTy T)))
    (hnew : (m.map (fun e => (⟨e.stat, e.qual⟩ : Key E Q)) ++
      items.map (fun t => (⟨⟨T, t.2.1⟩, t.1⟩ : Key E Q))).Nodup) :
    StatMap.extend A m T items = StatMap.runFrom A m (MapOp.insertItems T items) := by
  obtain ⟨a, _, r⟩ := reachRep A hm
  by_cases hs : Storable (E.layout (E.valTy T))
  · have hent : ∀ items : List (Qualifier Q × Nat × E.El (E.valTy T)), StatMap.entries T items =
        .ok (items.map (fun t => ⟨⟨T, t.2.1⟩, t.1, .val (E.valTy T) t.2.2⟩)) := by
      intro items
      induction items with
      | nil => rfl
      | cons t items ih =>
        obtain ⟨q, i, v⟩ := t
        unfold StatMap.entries
        rw [ih, Buf.from_eq, if_pos hs]
        rfl
    have hrun : ∀ (items : List (Qualifier Q × Nat × E.El (E.valTy T))) (m : StatMap E Q),
        Vec.Sorted A m →
        (m.map Entry.key ++ items.map (fun t => (⟨⟨T, t.2.1⟩, t.1⟩ : Key E Q))).Nodup →
        ∃ m', StatMap.runFrom A m (MapOp.insertItems T items) = .ok m' ∧ Vec.Sorted A m' ∧
          m'.Perm (m ++ items.map (fun t => ⟨⟨T, t.2.1⟩, t.1, .val (E.valTy T) t.2.2⟩)) := by
      intro items
      induction items with
      | nil => intro m hm _; exact ⟨m, rfl, hm, by simp⟩
      | cons t items ih =>
        intro m hm hn
        obtain ⟨q, i, v⟩ := t
        have hnot : (⟨⟨T, i⟩, q⟩ : Key E Q) ∉ m.map Entry.key := by
          intro hmem
          rw [List.nodup_append] at hn
          exact hn.2.2 _ hmem _ (by simp) rfl
        have hput := Vec.put_spec hm q ⟨T, i⟩ (.val (E.valTy T) v)
        have hperm := Vec.put_perm A hm q ⟨T, i⟩ (.val (E.valTy T) v) hnot
        obtain ⟨m', h1, h2, h3⟩ := ih (Vec.put A m q ⟨T, i⟩ (.val (E.valTy T) v)).1 hput.1 (by
          have : ((Vec.put A m q ⟨T, i⟩ (.val (E.valTy T) v)).1.map Entry.key ++
              items.map (fun t => (⟨⟨T, t.2.1⟩, t.1⟩ : Key E Q))).Perm
              (m.map Entry.key ++ ((q, i, v) :: items).map (fun t => (⟨⟨T, t.2.1⟩, t.1⟩ : Key E Q))) := by
            refine ((hperm.map Entry.key).append_right _).trans ?_
            simp
          exact this.nodup_iff.2 hn)
        refine ⟨m', ?_, h2, ?_⟩
        · simp only [MapOp.insertItems, List.map_cons, StatMap.runFrom, StatMap.step, StatMap.insert]
          rw [Buf.from_eq, if_pos hs]
          exact h1
        · refine h3.trans ((hperm.append_right _).trans ?_)
          simp
    obtain ⟨m', h1, h2, h3⟩ := hrun items m r.sorted hnew
    unfold StatMap.extend
    rw [hent, h1]
    simp only [Res.bind_ok]
    congr 1
    refine Vec.eq_of_perm A (Vec.sorted_mergeSort A ?_) h2 ((List.mergeSort_perm _ _).trans h3.symm)
    simpa [Function.comp_def] using hnew
  · cases items with
    | nil =>
      show Except.ok (Vec.sorted A (m ++ [])) = .ok m
      rw [List.append_nil]
      congr 1
      exact Vec.eq_of_perm A (Vec.sorted_mergeSort A r.sorted.nodup) r.sorted (List.mergeSort_perm _ _)
    | cons t items =>
      obtain ⟨q, i, v⟩ := t
      simp only [StatMap.extend, StatMap.entries, MapOp.insertItems, List.map_cons, StatMap.runFrom,
        StatMap.step, StatMap.insert, Buf.from_eq]
      rw [if_neg hs]
      rfl

/-- **C12** (the part that holds) for `from_iter`. -/
theorem C12_from_iter_is_insertion_partial (T : E.S) (items : List (Qualifier Q × Nat × E.El (E.valTy T)))
    (hnew : (items.map (fun t => (⟨⟨T, t.2.1⟩, t.1⟩ : Key E Q))).Nodup) :
    StatMap.fromIter A T items = StatMap.run A (MapOp.insertItems T items) := by
  have := C12_extend_is_insertion_partial A [] [] rfl T items (by simpa using hnew)
  exact this

/-- C12: hypotheses met by items given in descending key order -/
example : ([(⟨2, 0⟩, 1, ⟨3, 0, 100, 1⟩), (⟨0, 0⟩, 1, ⟨4, 0, 100, 1⟩), (⟨5, 0⟩, 0, ⟨4, 0, 100, 1⟩)].map
      (fun t : Qualifier (BitVec 8) × Nat × StatInt => (⟨⟨true, t.2.1⟩, t.1⟩ : Key demo (BitVec 8)))).Nodup := by
  decide

/-! ### type safety and identity -/

/-- **C35** In every reachable map each buffer holds a value of its stat's value type. -/
theorem C35_buffers_typed (h : List (MapOp E Q)) (m : StatMap E Q) (hm : StatMap.run A h = .ok m) :
    ∀ e ∈ m, ∃ x : E.El (E.valTy e.stat.vt), e.buf = .val (E.valTy e.stat.vt) x := by
  obtain ⟨a, _, r⟩ := reachRep A hm
  intro e he
  obtain ⟨x, _, hx, _⟩ := r.mem he
  exact ⟨x, hx⟩

theorem PMap.step_noUb (hE : E.NoUb) (a : PMap E Q) (o : MapOp E Q) (ho : o.NoUb) :
    a.step o ≠ .error .ub := by
  have hst : ∀ (k : Key E Q) v, a.store k v ≠ .error .ub := by
    intro k v h
    unfold PMap.store at h
    split at h <;> cases h
  have hb : ∀ {α : Type} {x : Res α} {f : α → Res (PMap E Q)}, x ≠ .error .ub → (∀ y, f y ≠ .error .ub) →
      (x >>= f) ≠ .error .ub := by
    intro α x f hx hf
    cases x with
    | error e => exact fun h => hx (by cases h; rfl)
    | ok y => exact hf y
  cases o with
  | insert q s v => exact hst ⟨s, q⟩ v
  | insertBase q s b => exact hst ⟨s, q⟩ _
  | modify q s o =>
    simp only [PMap.step]
    split
    · exact hb (hE.write _ _ _) (fun y => by simp)
    · exact hb (hE.write _ _ _) (fun y => hst ⟨s, q⟩ y)
  | modifyWith q s f =>
    simp only [PMap.step]
    split
    · exact hb (ho _) (fun y => by simp)
    · exact hb (ho _) (fun y => hst ⟨s, q⟩ y)
  | getMut q s f =>
    simp only [PMap.step]
    split
    · exact hb (ho _) (fun y => by simp)
    · simp
  | iterMut s f => simp [PMap.step]
  | remove q s => simp [PMap.step]
  | removeAll s => simp [PMap.step]
  | clear => simp [PMap.step]

/-- **C35** No history, over any mix of stat types, reads a buffer at a type it was not written with. -/
theorem C35_no_misread (hE : E.NoUb) (h : List (MapOp E Q)) (hh : ∀ o ∈ h, o.NoUb) :
    StatMap.run A h ≠ .error .ub := by
  have hp : ∀ (h : List (MapOp E Q)) (a : PMap E Q), (∀ o ∈ h, o.NoUb) → a.runFrom h ≠ .error .ub := by
    intro h
    induction h with
    | nil => intro a _; simp [PMap.runFrom]
    | cons o h ih =>
      intro a hh
      simp only [PMap.runFrom]
      have := PMap.step_noUb hE a o (hh o (by simp))
      cases hs : a.step o with
      | error e => rw [hs] at this; simpa using this
      | ok a' => exact ih a' (fun o ho => hh o (by simp [ho]))
  have hrel := Rep.run (A := A) h
  intro he
  rw [he] at hrel
  have := hp h PMap.empty hh
  cases hr : PMap.run h with
  | error e => rw [hr] at hrel; exact this (by rw [show e = .ub from hrel.symm] at hr; exact hr)
  | ok a => rw [hr] at hrel; exact hrel

section query
variable {Q : Type} [BitFlags Q] [FlagSet Q] [Ord Q] [Std.TransOrd Q] [Std.LawfulEqOrd Q]

/-- **C35** Neither do reads, iteration, queries or evaluation of a reachable map. -/
theorem C35_no_misread_observers (hE : E.NoUb) (h : List (MapOp E Q)) (m : StatMap E Q)
    (hm : StatMap.run A h = .ok m) (q : Qualifier Q) (query : QualifierQuery Q) (s : StatInst E) :
    StatMap.get A m q s ≠ .error .ub ∧ StatMap.getEvaled A m q s ≠ .error .ub ∧
    StatMap.iter A m s ≠ .error .ub ∧ StatMap.remove A m q s ≠ .error .ub ∧
    StatMap.queryStat A m query s ≠ .error .ub ∧ StatMap.evalStat A m query s ≠ .error .ub := by
  obtain ⟨a, ha, r⟩ := reachRep A hm
  have hj : ∀ (l : List s.Val) (v : s.Val), joinList s.sv v l ≠ .error .ub := by
    intro l
    induction l with
    | nil => intro v; simp [joinList]
    | cons x l ih =>
      intro v
      simp only [joinList]
      have := hE.join s.ty v x
      cases hx : s.sv.join v x with
      | error e =>
        intro h
        simp only [Res.bind_error] at h
        cases h; exact this hx
      | ok y => exact ih y
  refine ⟨by rw [r.get]; simp, ?_, ?_, ?_, ?_⟩
  · unfold StatMap.getEvaled
    rw [r.get]
    simp only [Res.bind_ok]
    cases a ⟨s, q⟩ with
    | none => simp [StatMap.evalOpt]
    | some v =>
      simp only [StatMap.evalOpt]
      have := hE.eval s.ty v
      cases hx : s.sv.eval v with
      | error e =>
        intro h
        simp only [Res.bind_error] at h
        cases h; exact this hx
      | ok y => simp
  · obtain ⟨L, hL, _⟩ := C10_iter A h m hm s
    rw [hL]; simp
  · rw [(r.pull q s).1]; simp
  · by_cases hs : Storable (E.layout s.ty)
    · obtain ⟨_, L, _, _, _, _, h1, h2⟩ := C08_query_joins_matching A h m hm query s hs
      rw [h1, h2]
      refine ⟨hj _ _, ?_⟩
      have := hj (L.map (·.2)) s.sv.default
      cases hx : joinList s.sv s.sv.default (L.map (·.2)) with
      | error e => rw [hx] at this; simpa using this
      | ok y => exact hE.eval s.ty y
    · unfold StatMap.evalStat
      rw [C08_unstorable_panics A m query s hs]
      simp
end query

theorem NumTy.fit_noUb (t : NumTy) (x : Int) : t.fit x ≠ .error .ub := by
  unfold NumTy.fit
  split
  · simp
  · split <;> simp

theorem Res.noUb_bind {α β : Type} {x : Res α} {f : α → Res β} (hx : x ≠ .error .ub)
    (hf : ∀ y, f y ≠ .error .ub) : (x >>= f) ≠ .error .ub := by
  cases x with
  | error e => exact fun h => hx (by cases h; rfl)
  | ok y => exact hf y

/-- C35: the demonstration program meets the hypothesis -/
theorem demo_noUb : demo.NoUb where
  write u o v := by
    cases u
    · cases o <;> simp [StatOp.writeTo]
    · cases o <;> simp only [StatOp.writeTo] <;>
        first | exact Res.noUb_bind (NumTy.fit_noUb _ _) (fun y => by simp) | simp
  join u a b := by
    cases u
    · simp
    · exact Res.noUb_bind (NumTy.fit_noUb _ _) (fun y => Res.noUb_bind (NumTy.fit_noUb _ _) (fun y => by simp))
  eval u v := by
    cases u
    · simp
    · exact Res.noUb_bind (NumTy.fit_noUb _ _) (fun y => by simp)

/-- **C37** Comparison of stats is a total order, equality under it (and `==`) is identity of stat type and
index, and equal stats feed the hasher the same data. -/
theorem C37_stat_identity :
    (∀ a b : StatInst E, a.cmp A b = .eq ↔ a = b) ∧
    (∀ a b : StatInst E, (a.cmp A b = .lt ↔ b.cmp A a = .gt)) ∧
    (∀ a b c : StatInst E, a.cmp A b = .lt → b.cmp A c = .lt → a.cmp A c = .lt) ∧
    (∀ a b : StatInst E, a.eq A b = true ↔ (a.vt = b.vt ∧ a.index = b.index)) ∧
    (∀ a b : StatInst E, a.eq A b = true ↔ a.cmp A b = .eq) ∧
    (∀ a b : StatInst E, a.eq A b = true → a.hashInput A = b.hashInput A) ∧
    (∀ a b : StatInst E, a.hashInput A = b.hashInput A → a = b) := by
  have heq : ∀ a b : StatInst E, a.eq A b = true ↔ (a.vt = b.vt ∧ a.index = b.index) := by
    intro a b
    simp only [StatInst.eq, Bool.and_eq_true, beq_iff_eq]
    exact ⟨fun h => ⟨A.inj h.2, h.1⟩, fun h => ⟨h.2, by rw [h.1]⟩⟩
  have hcmp : ∀ a b : StatInst E, a.cmp A b = .eq ↔ a = b :=
    fun a b => Std.LawfulEqCmp.compare_eq_iff_eq (cmp := StatInst.cmp A)
  have hid : ∀ a b : StatInst E, (a.vt = b.vt ∧ a.index = b.index) ↔ a = b := by
    intro a b
    cases a; cases b
    simp
  refine ⟨hcmp, fun a b => (Std.OrientedCmp.gt_iff_lt (cmp := StatInst.cmp A)).symm, fun a b c => Std.TransCmp.lt_trans (cmp := StatInst.cmp A),
    heq, fun a b => by rw [heq, hcmp, hid], fun a b h => ?_, fun a b h => ?_⟩
  · rw [heq, hid] at h; rw [h]
  · simp only [StatInst.hashInput, List.cons.injEq, and_true] at h
    exact (hid a b).1 ⟨A.inj h.2, h.1⟩

/-- C37: different stats of one type and stats of different types compare unequal -/
example : (demoInt 1).cmp demoAddr (demoInt 2) = .lt ∧ (demoFlag 0).cmp demoAddr (demoInt 7) = .gt ∧
    (demoInt 1).eq demoAddr (demoFlag 1) = false := by decide

end BSQ
