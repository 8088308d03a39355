import Verif.Props.StreamStore
/-!
# Exactly which streams make the cache transparent: C48, C50, C55

Streams are handed the pair of stat and value by `&mut` and may replace both.  The cache stores the value that is left
under the stat that is left.  So queries return what they return without a cache exactly if that pair is right for its
own stat.
-/
set_option linter.unusedSectionVars false
namespace BSQ
variable {E : Env} {Q Ent α : Type} [DecidableEq Q] [DecidableEq Ent] {A : Addr E} {J : Joined E Q Ent}

theorem history_append (J : Joined E Q Ent) (evs evs' : List (Event E Q Ent))
    (hq : ∀ ev ∈ evs, ev.isQuery = true ∨ ev = .clear) {c : Cache E Q Ent} (hc : CacheTyped c) :
    history A J c (evs ++ evs') =
      ((history A J c evs).1 ++ (history A J (history A J c evs).2 evs').1,
        (history A J (history A J c evs).2 evs').2) := by
  induction evs generalizing c with
  | nil => rfl
  | cons ev evs ih =>
    have ih' := @ih (fun ev h => hq ev (List.mem_cons_of_mem _ h))
    cases ev with
    | query n r =>
      simp only [List.cons_append, history]
      rw [ih' (J.run_cacheTyped hc n r)]
    | clear =>
      simp only [List.cons_append, history, hc.clear]
      exact ih' (fun x hx => by cases hx)
    | change J'' => rcases hq _ List.mem_cons_self with h | h <;> cases h

/-- contents of the cache that satisfy `I`, which queries and clears keep, and on which queries are right -/
structure Transparent (A : Addr E) (J : Joined E Q Ent) (I : Cache E Q Ent → Prop) : Prop where
  empty : I []
  query : ∀ c, I c → ∀ n r, I ((J.handle A n r).run A c).2
  typed : ∀ c, I c → CacheTyped c
  faithful : ∀ c, I c → ∀ n r, Faithful A J n r ((J.handle A n r).run A c).1

/-- on a cache of values of the right types, catching panics is catching the panics of the outcome -/
theorem CProg.run_attempt {c : Cache E Q Ent} (hc : CacheTyped c) {x : CProg E Q Ent α}
    (hx : CProg.Good (fun _ _ => True) TypedEntry (fun _ => True) x) :
    x.attempt.run A c = ((x.run A c).1.attempt, (x.run A c).2) := by
  induction x generalizing c with
  | ret a => rfl
  | fail e => cases e <;> rfl
  | get k g ih => exact ih _ hc (hx _ trivial)
  | put k b g ih => exact ih (hc.insert hx.1) hx.2
  | clear g ih =>
    rw [CProg.attempt_clear, CProg.run_clear_ok A c hc.clear, CProg.run_clear_ok A c hc.clear]
    exact ih (fun x hx => by cases hx) hx

namespace Transparent
variable {I : Cache E Q Ent → Prop}

theorem interp (h : Transparent A J I) (m : Nat) {p : Prog E Q Ent α} (hp : p.NoStore) {x : α}
    (hx : p.eval (J.answer A m) = .ok x) {c : Cache E Q Ent} (hc : I c) :
    ∃ c', I c' ∧ (p.interp (J.handle A m)).run A c = (.ok x, c') := by
  induction p generalizing c with
  | ret a => cases hx; exact ⟨c, hc, rfl⟩
  | fail e => cases hx
  | ask r k ih =>
    obtain ⟨a, ha, hx⟩ := Res.bind_eq_ok.1 hx
    obtain ⟨c', hc', hr⟩ := ih a (hp a) hx (h.query c hc m r)
    refine ⟨c', hc', ?_⟩
    change ((J.handle A m r).bind fun x => (k x).interp (J.handle A m)).run A c = _
    rw [CProg.run_bind]
    have h1 := (h.faithful c hc m r).1 (by rw [ha]; simp)
    rw [ha] at h1
    cases hrun : (J.handle A m r).run A c with
    | mk o c₁ =>
      rw [hrun] at h1 hr
      cases h1
      exact hr
  | attempt r k ih =>
    obtain ⟨a, ha, hx⟩ := Res.bind_eq_ok.1 hx
    obtain ⟨c', hc', hr⟩ := ih a (hp a) hx (h.query c hc m r)
    refine ⟨c', hc', ?_⟩
    change ((J.handle A m r).attempt.bind fun x => (k x).interp (J.handle A m)).run A c = _
    rw [CProg.run_bind, CProg.run_attempt (h.typed c hc) (J.putsTyped A m r)]
    have h1 := (h.faithful c hc m r).1 (by intro hf; rw [hf] at ha; cases ha)
    rw [h1, ha]
    exact hr
  | clear k ih =>
    obtain ⟨c', hc', hr⟩ := ih hp hx h.empty
    refine ⟨c', hc', ?_⟩
    change (CProg.clear _).run A c = _
    rw [CProg.run_clear, (h.typed c hc).clear]
    exact hr
  | store e q p k ih => exact hp.elim

theorem calls (h : Transparent A J I) (m : Nat) {l : List (Call E Q Ent)} (hl : ∀ c ∈ l, ∀ p, (c p).NoStore)
    {p p' : Pair E} (hp : runCalls (J.answer A m) l p = .ok p') {c : Cache E Q Ent} (hc : I c) :
    ∃ c', I c' ∧ (callsCode (J.handle A m) l p).run A c = (.ok p', c') := by
  induction l generalizing p c with
  | nil => cases hp; exact ⟨c, hc, rfl⟩
  | cons x l ih =>
    obtain ⟨p₁, h1, h2⟩ := Res.bind_eq_ok.1 hp
    obtain ⟨c₁, hc₁, hr₁⟩ := h.interp m (hl x List.mem_cons_self p) h1 hc
    obtain ⟨c₂, hc₂, hr₂⟩ := ih (fun c hc => hl c (List.mem_cons_of_mem _ hc)) h2 hc₁
    refine ⟨c₂, hc₂, ?_⟩
    rw [callsCode, CProg.run_bind, hr₁]
    exact hr₂

/-- if all queries are right, then so is all that they store -/
theorem storesRight (h : Transparent A J I) (hc : J.world.cached = true) (hn : J.NoStore) : J.StoresRight A := by
  intro e q s v m p he hs hv hp
  have hread := (h.faithful [] h.empty (m + 1) (.stat e q s)).1
  rw [Joined.answer_body hs he, Joined.body, hv, Res.bind_ok, hp, Res.bind_ok] at hread
  have hne : (p.value.read s.ty >>= fun x => (.ok (some x) : Res (Option s.Val))) ≠ .error .fuel := by
    by_cases hx : ∃ x : s.Val, p.value = .val s.ty x
    · obtain ⟨x, hx⟩ := hx
      rw [hx, Buf.read_val hs]
      intro h; cases h
    · rw [(Buf.read_ub hs _).2 (fun x h => hx ⟨x, h⟩)]
      intro h; cases h
  have hread := hread hne
  obtain ⟨c', -, hrun⟩ := h.calls m (hn.stat e q) hp h.empty
  have hall : (J.handle A (m + 1) (.stat e q s)).run A [] =
      ((J.remember e q p).bind fun _ => CProg.lift (StatMap.readAs s (some p.value))).run A c' := by
    suffices key : ∀ y : CProg E Q Ent (Option s.Val), y =
        ((CProg.lift (validate (E.layout s.ty))).bind fun _ =>
          (J.queryStatErased A (J.handle A m) e q s).bind fun o => CProg.lift (StatMap.readAs s o)) →
        y.run A [] = ((J.remember e q p).bind fun _ => CProg.lift (StatMap.readAs s (some p.value))).run A c' from
      key (J.handle A (m + 1) (.stat e q s)) rfl
    rintro y rfl
    simp only [validate_eq, hs, if_true, CProg.lift_ok, CProg.bind_ret, Joined.queryStatErased, he, Joined.lookup,
      CProg.bind_eq, hc, CProg.bind_get, CProg.run_get, HMap.get, Joined.miss, J.compute_eq, hv,
      CProg.bind_assoc, List.find?_nil, Option.map_none, Defaults.cloned]
    rw [CProg.run_bind, hrun]
  have hI := h.query [] h.empty (m + 1) (.stat e q s)
  rw [hall] at hread hI
  unfold Joined.remember CProg.cachePair at hread hI
  rw [if_pos hc] at hread hI
  by_cases hs' : Storable (E.layout p.stat.ty)
  · refine ⟨hs', ?_⟩
    rcases p.cloneBuffer_eq hs' with ⟨v', hv', hb⟩ | ⟨hnv, hb⟩
    · left
      rw [hb] at hI
      simp only [CProg.lift_ok, CProg.bind_ret, CProg.bind_put, CProg.run_put, CProg.run_lift] at hI
      have hk := C52_cached A J 0 _ e q p.stat v' hs' he hc ((HMap.get_insert (CacheKey.eq_iff A) c' ⟨e, q, p.stat⟩ _
        (.val p.stat.ty v')).trans (if_pos rfl))
      obtain ⟨m', hm'⟩ := (h.faithful _ hI 1 (.stat e q p.stat)).2 (by rw [hk]; simp)
      rw [hk] at hm'
      exact ⟨v', m', hv', hm'⟩
    · right
      refine ⟨hnv, fun x hx => ?_⟩
      rw [hb, hx, Buf.read_val hs] at hread
      cases hread
  · exfalso
    have hb : p.cloneBuffer = .error .panic := by
      have hs'' : ¬ Storable (E.layout (E.valTy p.stat.vt)) := hs'
      simp [Pair.cloneBuffer, vtClone, Buf.read, validate_eq, hs'']
    rw [hb] at hread
    change (.error .panic : Res (Option s.Val)) = _ at hread
    by_cases hx : ∃ x : s.Val, p.value = .val s.ty x
    · obtain ⟨x, hx⟩ := hx
      rw [hx, Buf.read_val hs] at hread
      cases hread
    · rw [(Buf.read_ub hs _).2 (fun x h => hx ⟨x, h⟩)] at hread
      cases hread

end Transparent

/-- streams that store nothing in the cache themselves -/
theorem Joined.StoresRight.right (h : J.StoresRight A) (hn : J.NoStore) : J.Right A where
  results _ := h
  stat e q s v _ _ := .of_each (fun c hc p => (hn.stat e q c hc p).honest) _
  relation a b q s v _ _ _ := .of_each (fun c hc p => (hn.relation a b q c hc p).honest) _
  attr e a c hc := (hn.attr e a c hc).honest

/-- **C48, exactly**: let streams store nothing in the cache themselves (they may clear it).  In any history of queries
and clears all queries run and return what they return without a cache, if and only if the pair that the sources of a
stat query leave is always right for its own stat. -/
theorem C48_iff (hc : J.world.cached = true) (hn : J.NoStore) :
    (∀ evs : List (Event E Q Ent), (∀ ev ∈ evs, ev.isQuery = true ∨ ev = .clear) →
      (history A J [] evs).1.length = evs.countP Event.isQuery ∧
      ∀ o ∈ (history A J [] evs).1, Faithful A o.querier o.depth o.req o.res) ↔ J.StoresRight A := by
  constructor
  · intro h
    refine Transparent.storesRight (I := fun c => ∃ evs : List (Event E Q Ent),
      (∀ ev ∈ evs, ev.isQuery = true ∨ ev = .clear) ∧ c = (history A J [] evs).2) ⟨⟨[], by simp, rfl⟩, ?_, ?_, ?_⟩ hc hn
    · rintro c ⟨evs, hq, rfl⟩ n r
      refine ⟨evs ++ [.query n r], ?_, ?_⟩
      · intro ev hev
        rcases List.mem_append.1 hev with h | h
        · exact hq ev h
        · cases List.mem_singleton.1 h; exact .inl rfl
      · rw [history_append J evs _ hq (fun x hx => by cases hx)]
        rfl
    · rintro c ⟨evs, hq, rfl⟩
      exact history_cacheTyped evs J (fun x hx => by cases hx)
    · rintro c ⟨evs, hq, rfl⟩ n r
      have h1 := (h (evs ++ [.query n r]) (by
        intro ev hev
        rcases List.mem_append.1 hev with h | h
        · exact hq ev h
        · cases List.mem_singleton.1 h; exact .inl rfl)).2
      rw [history_append J evs _ hq (fun x hx => by cases hx)] at h1
      exact h1 ⟨J, n, r, _⟩ (List.mem_append_right _ List.mem_cons_self)
  · intro h evs hq
    have hr := h.right hn
    have key : ∀ evs : List (Event E Q Ent), (∀ ev ∈ evs, ev.isQuery = true ∨ ev = .clear) → Cleared false evs := by
      intro evs hq
      induction evs with
      | nil => trivial
      | cons ev evs ih =>
        have ih' := ih fun ev h => hq ev (List.mem_cons_of_mem _ h)
        cases ev with
        | query n r => exact ⟨rfl, ih'⟩
        | clear => exact ih'
        | change J'' => rcases hq _ List.mem_cons_self with h | h <;> cases h
    exact C48_transparent_partial J evs hr (fun J' hJ' => by rcases hq _ hJ' with h | h <;> cases h) (key evs hq)

/-- **C50, exactly**: let streams store nothing in the cache themselves (they may clear it).  However many threads
query, interleaved with each other and with clears, each query that has finished has the result it has without a
cache, if and only if the pair that the sources of a stat query leave is always right for its own stat. -/
theorem C50_iff (hc : J.world.cached = true) (hn : J.NoStore) :
    (∀ s, Reachable A J s → ∀ t ∈ s.threads, (∀ x, t.code = .ret x → Faithful A J t.depth t.req (.ok x)) ∧
      (∀ x, t.code = .fail x → Faithful A J t.depth t.req (.error x))) ↔ J.StoresRight A := by
  constructor
  · intro h
    refine Transparent.storesRight (I := fun c => ∃ ts, Reachable A J ⟨c, ts⟩) ⟨⟨[], .init⟩, ?_, ?_, ?_⟩ hc hn
    · rintro c ⟨ts, hr⟩ n r
      exact ⟨_, C50_sequential hr n r⟩
    · rintro c ⟨ts, hr⟩
      exact hr.cacheTyped
    · rintro c ⟨ts, hr⟩ n r
      have h1 := h _ (C50_sequential hr n r) _ (List.mem_append_right _ (List.mem_singleton.2 rfl))
      change (∀ x, CProg.lift ((J.handle A n r).run A c).1 = CProg.ret x → _) ∧ _ at h1
      generalize ((J.handle A n r).run A c).1 = y at h1 ⊢
      cases y with
      | ok x => exact h1.1 x rfl
      | error x => exact h1.2 x rfl
  · exact fun h s hr => C50_concurrent_partial (h.right hn) s hr

/-- **C55, exactly** for one stat query: let the sources of the stat leave the pair `p`; the query misreads the value
if and only if it is not one of the stat asked for. -/
theorem C55_iff {e : Ent} {q : QualifierQuery Q} {s : StatInst E} {v : Buf E} {m : Nat} {p : Pair E}
    (he : J.world.isStat e = true) (hs : Storable (E.layout s.ty)) (hv : J.world.startValue A s = .ok v)
    (hp : runCalls (J.answer A m) (J.statCalls e q) ⟨s, v⟩ = .ok p) :
    J.answer A (m + 1) (.stat e q s) = .error .ub ↔ ∀ x : s.Val, p.value ≠ .val s.ty x := by
  rw [Joined.answer_body hs he, Joined.body, hv, Res.bind_ok, hp, Res.bind_ok, ← Buf.read_ub hs]
  cases p.value.read s.ty with
  | ok x => simp
  | error x =>
    change Except.error x = Except.error Err.ub ↔ _
    simp

/-- user code that replaces the pair: `*pair = StatValuePair::new(&int(1), 7)` -/
def demoAlias : CStream demo (BitVec 8) Nat where
  Item := Unit
  query _ := some ()
  stream _ _ _ _ := .lift (Pair.new (demoInt 1) ⟨7, 0, 10, 1⟩)

/-- with that stream alone -/
def demoAliased : Joined demo (BitVec 8) Nat := ({ demoWorld with relations := none }).withComponent demoAlias

theorem demoAliased_noStore : demoAliased.NoStore :=
  .of_streams (fun g hg => by cases hg) (fun st hst e it _ this q p => by
      cases List.mem_singleton.1 hst; exact (Prog.Quiet.lift (Pair.new (demoInt 1) ⟨7, 0, 10, 1⟩)).noStore)
    (fun st hst => by cases hst) (fun st hst e it _ this a => by cases List.mem_singleton.1 hst; trivial)

theorem demoAliased_storesRight : demoAliased.StoresRight demoAddr := by
  intro e q s v m p he _ _ hp
  have h1 : runCalls (demoAliased.answer demoAddr m) (demoAliased.statCalls e q) ⟨s, v⟩ =
      .ok ⟨demoInt 1, .val true (⟨7, 0, 10, 1⟩ : StatInt)⟩ := rfl
  rw [h1] at hp
  cases hp
  refine ⟨by decide, .inl ⟨⟨7, 0, 10, 1⟩, 1, rfl, ?_⟩⟩
  change demoAliased.answer demoAddr 1 (.stat e q (demoInt 1)) = _
  rw [demoAliased.answer_succ]
  simp only [Joined.ideal, he]
  rfl

/-- the stream replaces the stat, and yet the cache is transparent, also for a second thread: the value is right for
the stat it is stored under -/
example : (∀ s, Reachable demoAddr demoAliased s → ∀ t ∈ s.threads,
      (∀ x, t.code = .ret x → Faithful demoAddr demoAliased t.depth t.req (.ok x)) ∧
      (∀ x, t.code = .fail x → Faithful demoAddr demoAliased t.depth t.req (.error x))) ∧
    ((demoAliased.handle demoAddr 1 (.stat 0 demoQ (demoInt 0))).run demoAddr []) =
      (.ok (some ⟨7, 0, 10, 1⟩ : Option StatInt), [(⟨0, demoQ, demoInt 1⟩, .val true (⟨7, 0, 10, 1⟩ : StatInt))]) :=
  ⟨(C50_iff rfl demoAliased_noStore).2 demoAliased_storesRight, rfl⟩

/-- a query for a stat of another type misreads it -/
example : demoAliased.answer demoAddr 1 (.stat 0 demoQ (demoFlag 0)) = .error .ub :=
  (C55_iff (m := 0) (v := .val false (⟨0, 0⟩ : StatFlags (BitVec 8)))
    (p := ⟨demoInt 1, .val true (⟨7, 0, 10, 1⟩ : StatInt)⟩) rfl (by decide) rfl rfl).2 (fun x h => by cases h)

/-- `demoSwapped` stores 7 for stat 1, which is not what its query returns -/
example : ¬ demoSwapped.StoresRight demoAddr := by
  intro h
  obtain ⟨-, ⟨v', m', h1, h2⟩ | ⟨h1, -⟩⟩ := h 0 demoQ (demoInt 0) (.val true (⟨0, -2147483648, 2147483647, 1⟩ : StatInt)) 0
    ⟨demoInt 1, .val true (⟨7, 0, 10, 1⟩ : StatInt)⟩ rfl (by decide) rfl rfl
  · cases h1
    cases m' with
    | zero => cases h2
    | succ m =>
      have h3 : demoSwapped.answer demoAddr (m + 1) (.stat 0 demoQ (demoInt 1)) =
        (.ok (some ⟨0, -2147483648, 2147483647, 1⟩) : Res (Option StatInt)) := rfl
      cases h2.symm.trans h3
  · exact h1 _ rfl

/-- C55: and the cache adds no misreads: when what is stored in it is right, then a query misreads after some history
of queries and clears if and only if it does without a cache -/
theorem C55_cached_iff (hJ : J.Right A) (r : Req E Q Ent) :
    (∃ evs : List (Event E Q Ent), (∀ ev ∈ evs, ev.isQuery = true ∨ ev = .clear) ∧
      ∃ n, ((J.handle A n r).run A (history A J [] evs).2).1 = .error .ub) ↔ ∃ n, J.answer A n r = .error .ub := by
  constructor
  · rintro ⟨evs, hq, n, h⟩
    obtain ⟨m, hm⟩ := (hJ.run_valid (history_valid hJ evs hq (c := []) (fun x hx => by cases hx)) n r).1.2 (by rw [h]; simp)
    exact ⟨m, hm.trans h⟩
  · rintro ⟨n, hn⟩
    refine ⟨[], by simp, n, ?_⟩
    exact ((hJ.run_valid (history_valid hJ [] (by simp) (c := []) (fun x hx => by cases hx)) n r).1.1 (by rw [hn]; simp)).trans hn

/-! ### C95 -/

/-- C95: whatever the streams do, after any history each cached value is one of the stat it is cached for, and
storable -/
theorem C95_typed (J : Joined E Q Ent) (evs : List (Event E Q Ent)) :
    ∀ x ∈ (history A J [] evs).2, ∃ v : x.1.stat.Val, x.2 = .val x.1.stat.ty v ∧ Storable (E.layout x.1.stat.ty) :=
  history_cacheTyped evs J (fun x hx => by cases hx)

/-- C95: also at any point while any number of threads query, clear, and are interleaved -/
theorem C95_concurrent (s : Conf E Q Ent) (h : Reachable A J s) :
    ∀ x ∈ s.cache, ∃ v : x.1.stat.Val, x.2 = .val x.1.stat.ty v ∧ Storable (E.layout x.1.stat.ty) :=
  h.cacheTyped

/-- C95: so a query that finds its key in the cache returns the value found, for any further joined streams over a
world with a cache, and the cache stays as it is -/
theorem C95_hit (J : Joined E Q Ent) (evs : List (Event E Q Ent)) (J' : Joined E Q Ent) (n : Nat) (e : Ent)
    (q : QualifierQuery Q) (s : StatInst E) (he : J'.world.isStat e = true) (hc : J'.world.cached = true)
    (h : ∃ b, HMap.get (CacheKey.eq A) (history A J [] evs).2 ⟨e, q, s⟩ = some b) :
    ∃ v : s.Val, HMap.get (CacheKey.eq A) (history A J [] evs).2 ⟨e, q, s⟩ = some (.val s.ty v) ∧
      (J'.handle A (n + 1) (.stat e q s)).run A (history A J [] evs).2 = (.ok (some v), (history A J [] evs).2) := by
  obtain ⟨b, hb⟩ := h
  obtain ⟨v, rfl, hs⟩ := (history_cacheTyped (A := A) evs J (c := []) (fun x hx => by cases hx)).get _ hb
  exact ⟨v, hb, C52_cached A J' n _ e q s v hs he hc hb⟩

/-- C95: and clearing succeeds after any history; all queries of a history run, and all that come after a clear run on
an empty cache -/
theorem C95_clears (J : Joined E Q Ent) (evs : List (Event E Q Ent)) :
    (history A J [] evs).2.clear = .ok [] ∧ (history A J [] evs).1.length = evs.countP Event.isQuery := by
  refine ⟨(history_cacheTyped (A := A) evs J (fun x hx => by cases hx)).clear, ?_⟩
  have key : ∀ (evs : List (Event E Q Ent)) (J : Joined E Q Ent) (c : Cache E Q Ent), CacheTyped c →
      (history A J c evs).1.length = evs.countP Event.isQuery := by
    intro evs
    induction evs with
    | nil => exact fun _ _ _ => rfl
    | cons ev evs ih =>
      intro J c hc
      cases ev with
      | query n r =>
        simp [history, List.countP_cons, Event.isQuery, ih J _ (J.run_cacheTyped hc n r)]
      | clear =>
        simp only [history, hc.clear]
        simp [Event.isQuery, ih J [] (fun x hx => by cases hx)]
      | change J' =>
        simp only [history]
        simp [Event.isQuery, ih J' c hc]
  exact key evs J [] (fun x hx => by cases hx)

/-- a stream puts a value of another type in place of the one asked for, so the query misreads it; the cache holds it
under its own stat and type, and the query for that stat then returns it -/
example : ((history demoAddr (demoWorld.withComponent demoRetype) [] [.query 1 (.stat 0 demoQ (demoInt 0))]).2 =
      [(⟨0, demoQ, demoFlag 0⟩, .val false (⟨1, 2⟩ : StatFlags (BitVec 8)))]) ∧
    ((demoWorld.withComponent demoRetype).handle demoAddr 1 (.stat 0 demoQ (demoInt 0))).run demoAddr
      ((history demoAddr (demoWorld.withComponent demoRetype) [] [.query 1 (.stat 0 demoQ (demoInt 0))]).2) =
      (.error .ub, [(⟨0, demoQ, demoFlag 0⟩, .val false (⟨1, 2⟩ : StatFlags (BitVec 8)))]) ∧
    (demoJoined.handle demoAddr 1 (.stat 0 demoQ (demoFlag 0))).run demoAddr
      ((history demoAddr (demoWorld.withComponent demoRetype) [] [.query 1 (.stat 0 demoQ (demoInt 0))]).2) =
      (.ok (some (⟨1, 2⟩ : StatFlags (BitVec 8))), [(⟨0, demoQ, demoFlag 0⟩, .val false (⟨1, 2⟩ : StatFlags (BitVec 8)))]) :=
  ⟨rfl, rfl, rfl⟩

end BSQ
