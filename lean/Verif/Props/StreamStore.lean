import Verif.Props.StreamClear
import Verif.Props.CacheTrace
import Verif.Props.Recursion
/-!
# C94: streams that store pairs in the cache

`StatCache::cache_pair` takes `&self`, as `clear` does (C92), so a stream can store a pair, for any entity, query and
stat, in the cache that the query it is part of is using.  What the crate promises about results then depends on
these pairs being right (`Joined.Honest`); C48, C49, C50, C51, C88 and C92 are stated for such streams.
-/
namespace BSQ
set_option linter.unusedSectionVars false
variable {E : Env} {Q Ent : Type} [DecidableEq Q] [DecidableEq Ent] {A : Addr E} {J : Joined E Q Ent}

omit [DecidableEq Q] in
theorem HonestCalls.of_each {l : List (Call E Q Ent)} (hl : ∀ c ∈ l, ∀ p, (c p).Honest A J) (p : Pair E) :
    HonestCalls A J l p := by
  induction l generalizing p with
  | nil => trivial
  | cons c l ih => exact ⟨hl c List.mem_cons_self p, fun _ p' _ => ih (fun c hc => hl c (List.mem_cons_of_mem _ hc)) p'⟩

omit [DecidableEq Q] in
theorem Joined.Safe.honest_of_each (hJ : J.Safe A) (h : J.Each fun p => p.Honest A J) : J.Honest A where
  safe := hJ
  stat e q _ _ _ _ := .of_each (h.stat e q) _
  relation a b q _ _ _ _ _ := .of_each (h.relation a b q) _
  attr e a c hc := h.attr e a c hc

/-- C94, for well-behaved streams each of which stores a pair for an entity and a query only if it is what that query
of that entity returns: whatever was queried before, a query returns what it returns without a cache -/
theorem C94_returns (hJ : J.Honest A) (evs : List (Event E Q Ent))
    (hq : ∀ ev ∈ evs, ev.isQuery = true ∨ ev = .clear) (n : Nat) (r : Req E Q Ent) :
    Faithful A J n r ((J.handle A n r).run A (history A J [] evs).2).1 :=
  (hJ.right.run_valid (history_valid hJ.right evs hq (fun x hx => by cases hx)) n r).1

/-- C94: a pair of storable type that a stream stores is what the stream gets when it asks for it next, right or not,
whatever was stored before; no source is asked -/
theorem C94_recalled (n : Nat) (c : Cache E Q Ent) {α : Type} (e : Ent) (q : QualifierQuery Q) (s : StatInst E)
    (v : s.Val) (hs : Storable (E.layout s.ty)) (he : J.world.isStat e = true) (hc : J.world.cached = true)
    (k : Option s.Val → Prog E Q Ent α) :
    ((Prog.store e q ⟨s, .val s.ty v⟩ (.ask (.stat e q s) k)).interp (J.handle A (n + 1))).run A c =
      ((k (some v)).interp (J.handle A (n + 1))).run A (HMap.insert (CacheKey.eq A) c ⟨e, q, s⟩ (.val s.ty v)).1 := by
  have hk : HMap.get (CacheKey.eq A) (HMap.insert (CacheKey.eq A) c ⟨e, q, s⟩ (.val s.ty v)).1 ⟨e, q, s⟩ =
      some (.val s.ty v) := by
    rw [HMap.get_insert (CacheKey.eq_iff A), if_pos rfl]
  have hb : (⟨s, .val s.ty v⟩ : Pair E).cloneBuffer = .ok (.val s.ty v) := by
    exact vtClone_val hs v
  simp only [Prog.interp, CProg.cachePair, hb, CProg.lift_ok, CProg.bind_ret, CProg.run_put]
  change ((J.handle A (n + 1) (.stat e q s)).bind fun x => (k x).interp (J.handle A (n + 1))).run A _ = _
  rw [CProg.run_bind, C52_cached A J n _ e q s v hs he hc hk]

/-- C94: so is the next query by anybody: when the last source of a stat stores a pair and returns, the pair is what
the next query for it returns -/
theorem C94_next (n : Nat) (c : Cache E Q Ent) {α : Type} (e : Ent) (q : QualifierQuery Q) (s : StatInst E)
    (v : s.Val) (hs : Storable (E.layout s.ty)) (he : J.world.isStat e = true) (hc : J.world.cached = true)
    (h : Handler E Q Ent) (a : α) :
    let r := ((Prog.store e q ⟨s, .val s.ty v⟩ (.ret a)).interp h).run A c
    r.1 = .ok a ∧ (J.handle A (n + 1) (.stat e q s)).run A r.2 = (.ok (some v), r.2) := by
  have hk : HMap.get (CacheKey.eq A) (HMap.insert (CacheKey.eq A) c ⟨e, q, s⟩ (.val s.ty v)).1 ⟨e, q, s⟩ =
      some (.val s.ty v) := by
    rw [HMap.get_insert (CacheKey.eq_iff A), if_pos rfl]
  have hb : (⟨s, .val s.ty v⟩ : Pair E).cloneBuffer = .ok (.val s.ty v) := by
    exact vtClone_val hs v
  simp only [Prog.interp, CProg.cachePair, hb, CProg.lift_ok, CProg.bind_ret, CProg.run_put]
  exact ⟨rfl, C52_cached A J n _ e q s v hs he hc hk⟩

/-! ### a concrete case -/

/-- user code on entity 1 that asks for the stat of entity 0, stores the answer, and adds 5:
`if let Some(v) = querier.query_stat(e0, q, &S) { cx.cache_pair(e0, q.clone(), &StatValuePair::new(S, v)) }; …` -/
def demoStore : CStream demo (BitVec 8) Nat where
  Item := Nat
  query e := if e == 1 then some e else none
  stream _ _ q p := .ask (.stat 0 q (demoInt 0)) fun
    | some v => .store 0 q ⟨demoInt 0, .val true v⟩ (demoAdd 5 p)
    | none => demoAdd 5 p

/-- with that stream alone -/
def demoStoring : Joined demo (BitVec 8) Nat := demoWorld.withComponent demoStore

theorem demoStoring_safe : demoStoring.Safe demoAddr where
  globals g hg e q := by
    cases List.mem_singleton.1 hg
    exact demoAdd_safe 1
  streams st hst e it _ this q := by
    cases List.mem_singleton.1 hst
    intro p hp o
    cases o with
    | none => exact demoAdd_safe 5 p hp
    | some v => exact demoAdd_safe 5 p hp
  relations st hst a b q := by cases hst
  attrs st hst e it _ this a := by
    cases List.mem_singleton.1 hst
    intro h; cases h
  defaults d hd := by cases hd

theorem demoStoring_honest : demoStoring.Honest demoAddr := by
  refine demoStoring_safe.honest_of_each (.of_streams (fun g hg => ?_) (fun st hst e it _ this q => ?_)
    (fun st hst => ?_) (fun st hst e it _ this a => ?_))
  · cases List.mem_singleton.1 hg; exact fun _ _ p => (demoAdd_quiet 1 p).noStore.honest
  · cases List.mem_singleton.1 hst
    rintro p o ⟨m, hm⟩
    cases o with
    | none => exact (demoAdd_quiet 5 p).noStore.honest
    | some v =>
      refine ⟨fun v' hv' => ⟨m, ?_⟩, (demoAdd_quiet 5 p).noStore.honest⟩
      cases hv'
      exact hm
  · cases hst
  · cases List.mem_singleton.1 hst; trivial

example : ((demoStoring.handle demoAddr 2 (.stat 1 demoQ (demoInt 0))).run demoAddr []).1 =
    (.ok (some ⟨6, -2147483648, 2147483647, 1⟩) : Res (Option StatInt)) := rfl
example (n : Nat) (r : Req demo (BitVec 8) Nat) : Faithful demoAddr demoStoring n r ((demoStoring.handle demoAddr n r).run
    demoAddr (history demoAddr demoStoring [] [.query 2 (.stat 1 demoQ (demoInt 0)), .clear,
      .query 2 (.stat 1 demoQ (demoInt 0))]).2).1 :=
  C94_returns demoStoring_honest _ (by simp [Event.isQuery]) n r

/-- a pair stored by hand, which need not be right, is what asking for it gives -/
example (c : Cache demo (BitVec 8) Nat) : (((Prog.store 0 demoQ ⟨demoInt 0, .val true (⟨7, 0, 9, 1⟩ : StatInt)⟩
      (.ask (.stat 0 demoQ (demoInt 0)) fun (o : Option StatInt) => .ret (o.map (·.addend))) :
      DProg (Option Int)).interp (demoStoring.handle demoAddr 1)).run demoAddr c).1 = .ok (some 7) := by
  have := C94_recalled (A := demoAddr) (J := demoStoring) 0 c 0 demoQ (demoInt 0) (⟨7, 0, 9, 1⟩ : StatInt) (by decide)
    rfl rfl (fun (o : Option StatInt) => .ret (o.map (·.addend)))
  exact congrArg Prod.fst this
example (c : Cache demo (BitVec 8) Nat) : (demoStoring.handle demoAddr 1 (.stat 0 demoQ (demoInt 0))).run demoAddr
      (((Prog.store 0 demoQ ⟨demoInt 0, .val true (⟨7, 0, 9, 1⟩ : StatInt)⟩ (.ret ()) : DProg Unit).interp
        (demoStoring.handle demoAddr 1)).run demoAddr c).2 =
    (.ok (some (⟨7, 0, 9, 1⟩ : StatInt)), (((Prog.store 0 demoQ ⟨demoInt 0, .val true (⟨7, 0, 9, 1⟩ : StatInt)⟩ (.ret ()) :
        DProg Unit).interp (demoStoring.handle demoAddr 1)).run demoAddr c).2) :=
  (C94_next (A := demoAddr) (J := demoStoring) 0 c 0 demoQ (demoInt 0) (⟨7, 0, 9, 1⟩ : StatInt) (by decide)
    rfl rfl _ ()).2

/-! ### what can go wrong -/

/-- C94: storing a result that is there already leaks the copy that was there, right as it is: here a single query
stores the answer it got, although the query for it has stored it -/
theorem C94_leaks : ∃ J : Joined demo (BitVec 8) Nat, J.Honest demoAddr ∧
    let os := historyAccesses demoAddr J [] [.query 2 (.stat 1 demoQ (demoInt 0))]
    ¬ NoneTwice [] os ∧ ∀ opTy,
      (unreleased ((HState.run (CacheKey.eq demoAddr) (fun k => k.stat.ty) opTy os).finish
        (fun k => k.stat.ty)).log).length = 1 := by
  have hos : historyAccesses demoAddr demoStoring [] [.query 2 (.stat 1 demoQ (demoInt 0))] =
      [.lookup ⟨1, demoQ, demoInt 0⟩, .lookup ⟨0, demoQ, demoInt 0⟩, .insert ⟨0, demoQ, demoInt 0⟩,
        .insert ⟨0, demoQ, demoInt 0⟩, .insert ⟨1, demoQ, demoInt 0⟩] := rfl
  have hs : Storable ⟨16, 8⟩ := by decide
  refine ⟨demoStoring, demoStoring_honest, ?_, fun opTy => ?_⟩
  · rw [hos]
    simp [NoneTwice]
  · rw [hos, C58_exact_partial (CacheKey.eq_iff demoAddr) opTy _ (by simp [KHash.Tame])]
    simp [KHash.leaks, KHash.step, hs]

/-- user code on entity 1 that stores 7 for entity 0, which is wrong, and adds 5 -/
def demoLie : CStream demo (BitVec 8) Nat where
  Item := Nat
  query e := if e == 1 then some e else none
  stream _ _ q p := .store 0 q ⟨demoInt 0, .val true (⟨7, -2147483648, 2147483647, 1⟩ : StatInt)⟩ (demoAdd 5 p)

def demoLying : Joined demo (BitVec 8) Nat := demoWorld.withComponent demoLie

theorem demoLying_safe : demoLying.Safe demoAddr where
  globals g hg e q := by
    cases List.mem_singleton.1 hg
    exact demoAdd_safe 1
  streams st hst e it _ this q := by
    cases List.mem_singleton.1 hst
    exact fun p hp => demoAdd_safe 5 p hp
  relations st hst a b q := by cases hst
  attrs st hst e it _ this a := by
    cases List.mem_singleton.1 hst
    intro h; cases h
  defaults d hd := by cases hd

/-- C94: that the pairs are right is needed: a wrong one is what later queries return, although streams are
well-behaved otherwise -/
theorem C94_wrong_pair : ∃ (J : Joined demo (BitVec 8) Nat) (evs : List (Event demo (BitVec 8) Nat)) (n : Nat)
    (r : Req demo (BitVec 8) Nat), J.Safe demoAddr ∧ (∀ ev ∈ evs, ev.isQuery = true) ∧
      ¬ Faithful demoAddr J n r ((J.handle demoAddr n r).run demoAddr (history demoAddr J [] evs).2).1 := by
  refine ⟨demoLying, [.query 1 (.stat 1 demoQ (demoInt 0))], 1, .stat 0 demoQ (demoInt 0), demoLying_safe,
    by simp [Event.isQuery], fun h => ?_⟩
  have h1 := h.1 (fun h => by cases h)
  have h2 : (.ok (some ⟨7, -2147483648, 2147483647, 1⟩) : Res (Option StatInt)) =
    .ok (some ⟨1, -2147483648, 2147483647, 1⟩) := h1
  cases h2

/-- a stream that stores the pair it got, then asks for the stat it is asked for, then adds 5 -/
def demoBreak : CStream demo (BitVec 8) Nat where
  Item := Nat
  query e := some e
  stream e _ q p := .store e q p (.ask (.stat e q p.stat) fun _ => demoAdd 5 p)

def demoBreaking : Joined demo (BitVec 8) Nat := ({ demoWorld with relations := none }).withComponent demoBreak

/-- C94: storing the pair first ends a recursion that would not end otherwise (C53), and without a cache does not -/
theorem C94_ends_recursion : ∃ (J : Joined demo (BitVec 8) Nat) (r : Req demo (BitVec 8) Nat),
    (∃ v, ((J.handle demoAddr 2 r).run demoAddr []).1 = .ok v) ∧ ∀ n, J.answer demoAddr n r = .error .fuel := by
  refine ⟨demoBreaking, .stat 0 demoQ (demoInt 0), ⟨some (⟨5, -2147483648, 2147483647, 1⟩ : StatInt), rfl⟩,
    fun n => ?_⟩
  induction n with
  | zero => rfl
  | succ n ih =>
    have hs : Storable (demo.layout (demoInt 0).ty) := by decide
    rw [Joined.answer_body hs (J := demoBreaking) rfl, Joined.body]
    have hv : demoBreaking.world.startValue demoAddr (demoInt 0) = .ok (.val true (demoInt 0).sv.default) := rfl
    have hc : demoBreaking.statCalls 0 demoQ = [demoBreak.stream 0 (0 : Nat) demoQ] := rfl
    rw [hv, hc, Res.bind_ok, runCalls]
    have he : (demoBreak.stream 0 (0 : Nat) demoQ ⟨demoInt 0, .val true (demoInt 0).sv.default⟩).eval
        (demoBreaking.answer demoAddr n) = .error .fuel := by
      change (Pair.cloneBuffer _ >>= fun _ => demoBreaking.answer demoAddr n (.stat 0 demoQ (demoInt 0)) >>= _) = _
      rw [ih]
      rfl
    rw [he]
    rfl

end BSQ
