import Verif.Proofs.Faithful
import Verif.Proofs.DemoQuerier
import Verif.Props.Plugin
import Verif.Props.Query
/-!
# C48: caching is transparent; C49: cached results stay until cleared; C50: concurrent queries;
C51: sharing a cache between queriers; C55: the type of results

`Joined.Safe` (in `Verif.Spec.Querier`) excludes user code that replaces the whole pair it is handed by that of
another stat.  Safe Rust can do that, so C48, C49, C50 and C55 are refuted as stated and proved for `Safe` code.
-/
namespace BSQ
set_option linter.unusedSectionVars false
variable {E : Env} {Q Ent α : Type} [DecidableEq Q] [DecidableEq Ent] {A : Addr E} {J : Joined E Q Ent}

/-- the requests in a history -/
def Event.isQuery : Event E Q Ent → Bool
  | .query _ _ => true
  | _ => false

/-- all queriers a history changes to are well-behaved -/
def SafeChanges (A : Addr E) (evs : List (Event E Q Ent)) : Prop :=
  ∀ J, Event.change J ∈ evs → J.Safe A

/-- what all queriers a history changes to store in the cache is right -/
def RightChanges (A : Addr E) (evs : List (Event E Q Ent)) : Prop :=
  ∀ J, Event.change J ∈ evs → J.Right A

/-- entries are right for the querier -/
def CacheValid (A : Addr E) (J : Joined E Q Ent) (c : Cache E Q Ent) : Prop :=
  ∀ x ∈ c, ValidEntry A J x.1 x.2

theorem ValidEntry.typed {k : CacheKey E Q Ent} {b : Buf E} (h : ValidEntry A J k b) : TypedEntry k b := by
  obtain ⟨v, h1, h2, -⟩ := h
  exact ⟨v, h1, h2⟩

theorem CacheValid.typed {c : Cache E Q Ent} (h : CacheValid A J c) : CacheTyped c :=
  fun x hx => (h x hx).typed

theorem CacheValid.insert {c : Cache E Q Ent} (h : CacheValid A J c) {k : CacheKey E Q Ent} {b : Buf E}
    (hb : ValidEntry A J k b) : CacheValid A J (HMap.insert (CacheKey.eq A) c k b).1 := by
  intro x hx
  rcases HMap.mem_insert (CacheKey.eq_iff A) hx with h' | rfl
  · exact h x h'
  · exact hb

theorem CacheValid.get {c : Cache E Q Ent} (h : CacheValid A J c) (k : CacheKey E Q Ent) :
    ValidGet A J k (HMap.get (CacheKey.eq A) c k) :=
  fun _ hb => h _ (HMap.mem_of_get (CacheKey.eq_iff A) hb)

theorem CacheTyped.insert {c : Cache E Q Ent} (h : CacheTyped c) {k : CacheKey E Q Ent} {b : Buf E}
    (hb : TypedEntry k b) : CacheTyped (HMap.insert (CacheKey.eq A) c k b).1 := by
  intro x hx
  rcases HMap.mem_insert (CacheKey.eq_iff A) hx with h' | rfl
  · exact h x h'
  · exact hb

theorem CacheTyped.get {c : Cache E Q Ent} (h : CacheTyped c) (k : CacheKey E Q Ent) {b : Buf E}
    (hb : HMap.get (CacheKey.eq A) c k = some b) : TypedEntry k b :=
  h _ (HMap.mem_of_get (CacheKey.eq_iff A) hb)

theorem CacheTyped.clear {c : Cache E Q Ent} (h : CacheTyped c) : c.clear = .ok [] := by
  simp [Cache.clear, h.dropAll]

/-- one request on a valid cache -/
theorem Joined.Right.run_valid (hJ : J.Right A) {c : Cache E Q Ent} (hc : CacheValid A J c) (n : Nat)
    (r : Req E Q Ent) : Faithful A J n r ((J.handle A n r).run A c).1 ∧
      CacheValid A J ((J.handle A n r).run A c).2 :=
  (hJ.faithful n r).run (CacheValid A J) (fun _ h k => h.get k) (fun _ _ _ h hb => h.insert hb)
    (fun c h => by rw [h.typed.clear]; exact fun x hx => by cases hx) hc

/-- one request on a typed cache -/
theorem Joined.Safe.run_typed (hJ : J.Safe A) {c : Cache E Q Ent} (hc : CacheTyped c) (n : Nat)
    (r : Req E Q Ent) : ErrIn (· ≠ .ub) ((J.handle A n r).run A c).1 ∧
      CacheTyped ((J.handle A n r).run A c).2 :=
  (hJ.typedCode (okGet := fun k o => ∀ b, o = some b → TypedEntry k b) (okPut := TypedEntry)
    (fun _ b h => h b rfl) (fun _ _ _ h => h) (.inl fun _ _ h => h) n r).run CacheTyped
    (fun _ h k _ hb => h.get k hb) (fun _ _ _ h hb => h.insert hb)
    (fun c h => by rw [h.clear]; exact fun x hx => by cases hx) hc

/-- one request on a typed cache, whatever the streams do -/
theorem Joined.run_cacheTyped (J : Joined E Q Ent) {c : Cache E Q Ent} (hc : CacheTyped c) (n : Nat)
    (r : Req E Q Ent) : CacheTyped ((J.handle A n r).run A c).2 :=
  ((J.putsTyped A n r).run CacheTyped (fun _ _ _ => trivial) (fun _ _ _ h hb => h.insert hb)
    (fun c h => by rw [h.clear]; exact fun x hx => by cases hx) hc).2

/-- whatever happens to a cache, and whatever the streams do, the cached values have the types of their stats -/
theorem history_cacheTyped (evs : List (Event E Q Ent)) (J : Joined E Q Ent) {c : Cache E Q Ent} (hc : CacheTyped c) :
    CacheTyped (history A J c evs).2 := by
  induction evs generalizing J c with
  | nil => exact hc
  | cons ev evs ih =>
    cases ev with
    | query n r => exact ih J (J.run_cacheTyped hc n r)
    | clear =>
      simp only [history, hc.clear]
      exact ih J (fun x hx => by cases hx)
    | change J' => exact ih J' hc

/-! ### C48 -/

theorem history_faithful (evs : List (Event E Q Ent)) (J : Joined E Q Ent) (c : Cache E Q Ent) (stale : Bool)
    (hJ : J.Right A) (hs : RightChanges A evs) (hc : CacheTyped c) (hv : stale = false → CacheValid A J c)
    (h : Cleared stale evs) :
    (∀ o ∈ (history A J c evs).1, Faithful A o.querier o.depth o.req o.res) ∧
    (history A J c evs).1.length = evs.countP Event.isQuery := by
  induction evs generalizing J c stale with
  | nil => exact ⟨fun o ho => (by cases ho), rfl⟩
  | cons ev evs ih =>
    have hs' : RightChanges A evs := fun J' hJ' => hs J' (List.mem_cons_of_mem _ hJ')
    cases ev with
    | query n r =>
      obtain ⟨rfl, h⟩ := h
      have h1 := hJ.run_valid (hv rfl) n r
      have h2 := ih J _ false hJ hs' h1.2.typed (fun _ => h1.2) h
      constructor
      · intro o ho
        simp only [history, List.mem_cons] at ho
        rcases ho with rfl | ho
        · exact h1.1
        · exact h2.1 o ho
      · simp [history, List.countP_cons, Event.isQuery, h2.2]
    | clear =>
      have h2 := ih J [] false hJ hs' (fun x hx => by cases hx) (fun _ x hx => by cases hx) h
      simp only [history, hc.clear]
      exact ⟨h2.1, by simp [Event.isQuery, h2.2]⟩
    | change J' =>
      have h2 := ih J' c true (hs J' List.mem_cons_self) hs' hc (fun h => by cases h) h
      simp only [history]
      exact ⟨h2.1, by simp [Event.isQuery, h2.2]⟩

/-- C48, for well-behaved streams, which may clear the cache and store right results in it themselves: in any history of queries, clears, and changes of the world or of the
joined streams each followed by a clear before the next query, all queries run and each returns what it
returns without a cache -/
theorem C48_transparent_partial (J : Joined E Q Ent) (evs : List (Event E Q Ent)) (hJ : J.Right A)
    (hs : RightChanges A evs) (h : Cleared false evs) :
    (history A J [] evs).1.length = evs.countP Event.isQuery ∧
    ∀ o ∈ (history A J [] evs).1, Faithful A o.querier o.depth o.req o.res := by
  have := history_faithful evs J [] false hJ hs (fun x hx => by cases hx) (fun _ x hx => by cases hx) h
  exact ⟨this.2, this.1⟩

/-- a world where entity 0 has a different component -/
def demoOther : Joined demo (BitVec 8) Nat := (demoWorld.withComponent demoChild)

theorem demoOther_safe : demoOther.Safe demoAddr where
  globals g hg e q := by
    cases List.mem_singleton.1 hg
    exact demoAdd_safe 1
  streams st hst e it _ this q := by
    cases List.mem_singleton.1 hst
    exact demoAdd_safe _
  relations st hst a b q := by cases hst
  attrs st hst e it _ this a := by
    cases List.mem_singleton.1 hst
    intro h; cases h
  defaults d hd := by cases hd

theorem demoAdd_quiet (k : Int) (p : Pair demo) : (demoAdd k p : DProg (Pair demo)).Quiet := .lift _

theorem demoJoined_quiet : demoJoined.Quiet := by
  refine .of_streams (fun g hg => ?_) (fun st hst e it _ this q => ?_) (fun st hst => ?_)
    (fun st hst e it _ this a => ?_)
  · cases List.mem_singleton.1 hg; exact fun _ _ => demoAdd_quiet 1
  · have : st ∈ [demoComp, demoRel, demoChild] := hst
    simp only [List.mem_cons, List.not_mem_nil, or_false] at this
    rcases this with rfl | rfl | rfl
    · exact demoAdd_quiet 10
    · exact fun _ => trivial
    · exact demoAdd_quiet _
  · cases List.mem_singleton.1 hst; exact fun _ _ _ => demoAdd_quiet _
  · have : st ∈ [demoComp, demoRel, demoChild] := hst
    simp only [List.mem_cons, List.not_mem_nil, or_false] at this
    rcases this with rfl | rfl | rfl <;> trivial

theorem demoOther_quiet : demoOther.Quiet := by
  refine .of_streams (fun g hg => ?_) (fun st hst e it _ this q => ?_) (fun st hst => ?_)
    (fun st hst e it _ this a => ?_)
  · cases List.mem_singleton.1 hg; exact fun _ _ => demoAdd_quiet 1
  · cases List.mem_singleton.1 hst; exact demoAdd_quiet _
  · cases hst
  · cases List.mem_singleton.1 hst; trivial

theorem demoJoined_honest : demoJoined.Honest demoAddr := demoJoined_safe.honest demoJoined_quiet.noStore
theorem demoOther_honest : demoOther.Honest demoAddr := demoOther_safe.honest demoOther_quiet.noStore

/-- a history with a repeated query, a change and a clear -/
def demoEvents : List (Event demo (BitVec 8) Nat) :=
  [.query 1 (.stat 0 demoQ (demoInt 0)), .query 1 (.stat 0 demoQ (demoInt 0)), .change demoOther, .clear,
   .query 1 (.stat 0 demoQ (demoInt 0))]

example : (history demoAddr demoJoined [] demoEvents).1.length = 3 ∧
    ∀ o ∈ (history demoAddr demoJoined [] demoEvents).1, Faithful demoAddr o.querier o.depth o.req o.res :=
  C48_transparent_partial demoJoined demoEvents demoJoined_honest.right
    (by intro J hJ
        simp only [demoEvents, List.mem_cons, reduceCtorEq, List.not_mem_nil, false_or, or_false,
          Event.change.injEq] at hJ
        subst hJ; exact demoOther_honest.right)
    ⟨rfl, rfl, rfl, trivial⟩

/-- user code that clears the cache, then adds 5: `cx.clear(); if let Some((_, v)) = …` -/
def demoWipe : CStream demo (BitVec 8) Nat where
  Item := Nat
  query e := if e == 1 then some e else none
  stream _ _ _ p := .clear (demoAdd 5 p)

/-- with that stream alone -/
def demoWiping : Joined demo (BitVec 8) Nat := demoWorld.withComponent demoWipe

theorem demoWiping_safe : demoWiping.Safe demoAddr where
  globals g hg e q := by
    cases List.mem_singleton.1 hg
    exact demoAdd_safe 1
  streams st hst e it _ this q := by
    cases List.mem_singleton.1 hst
    exact demoAdd_safe 5
  relations st hst a b q := by cases hst
  attrs st hst e it _ this a := by
    cases List.mem_singleton.1 hst
    intro h; cases h
  defaults d hd := by cases hd

theorem demoWiping_noStore : demoWiping.NoStore := by
  refine .of_streams (fun g hg => ?_) (fun st hst e it _ this q => ?_) (fun st hst => ?_)
    (fun st hst e it _ this a => ?_)
  · cases List.mem_singleton.1 hg; exact fun _ _ p => (demoAdd_quiet 1 p).noStore
  · cases List.mem_singleton.1 hst; exact fun p => (demoAdd_quiet 5 p).noStore
  · cases hst
  · cases List.mem_singleton.1 hst; trivial

theorem demoWiping_honest : demoWiping.Honest demoAddr := demoWiping_safe.honest demoWiping_noStore

/-- a history in which the cache is cleared by a stream, in the middle of the second query -/
example : (history demoAddr demoWiping [] [.query 1 (.stat 0 demoQ (demoInt 0)), .query 1 (.stat 1 demoQ (demoInt 0)),
      .query 1 (.stat 0 demoQ (demoInt 0))]).1.length = 3 ∧
    ∀ o ∈ (history demoAddr demoWiping [] [.query 1 (.stat 0 demoQ (demoInt 0)), .query 1 (.stat 1 demoQ (demoInt 0)),
      .query 1 (.stat 0 demoQ (demoInt 0))]).1, Faithful demoAddr o.querier o.depth o.req o.res :=
  C48_transparent_partial demoWiping _ demoWiping_honest.right
    (by intro J hJ; simp at hJ) ⟨rfl, rfl, rfl, trivial⟩
/-- what it leaves is the result of the query that cleared it -/
example : (((demoWiping.handle demoAddr 1 (.stat 1 demoQ (demoInt 0))).run demoAddr
    ((demoWiping.handle demoAddr 1 (.stat 0 demoQ (demoInt 0))).run demoAddr []).2).2.map Prod.fst =
      [⟨1, demoQ, demoInt 0⟩]) := rfl

/-- user code that replaces the pair: `if pair.is(&int(0)) { *pair = StatValuePair::new(&int(1), 7) }` -/
def demoSwap : CStream demo (BitVec 8) Nat where
  Item := Unit
  query _ := some ()
  stream _ _ _ p := if p.is demoAddr (demoInt 0) then .lift (Pair.new (demoInt 1) ⟨7, 0, 10, 1⟩) else .ret p

/-- with that stream alone -/
def demoSwapped : Joined demo (BitVec 8) Nat := ({ demoWorld with relations := none }).withComponent demoSwap

/-- C48 fails as stated: after a query of stat 0, whose stream replaces the pair, the query of stat 1 returns
7 with a cache and the default without -/
theorem C48_refuted : ∃ (J : Joined demo (BitVec 8) Nat) (evs : List (Event demo (BitVec 8) Nat)),
    Cleared false evs ∧ ∃ o ∈ (history demoAddr J [] evs).1, ¬ Faithful demoAddr o.querier o.depth o.req o.res := by
  refine ⟨demoSwapped, [.query 1 (.stat 0 demoQ (demoInt 0)), .query 1 (.stat 0 demoQ (demoInt 1))],
    ⟨rfl, rfl, trivial⟩, ⟨demoSwapped, 1, .stat 0 demoQ (demoInt 1), .ok (some ⟨7, 0, 10, 1⟩)⟩, ?_, ?_⟩
  · right; left
  · rintro ⟨h, -⟩
    have h1 : demoSwapped.answer demoAddr 1 (.stat 0 demoQ (demoInt 1)) =
        (.ok (some ⟨0, -2147483648, 2147483647, 1⟩) : Res (Option StatInt)) := rfl
    have h2 := h1.symm.trans (h (fun hh => by cases h1.symm.trans hh)).symm
    cases h2

/-! ### C49 -/

theorem Joined.Safe.remembers (hJ : J.Safe A) {c : Cache E Q Ent} (hc : CacheTyped c) {n : Nat} {e : Ent}
    {q : QualifierQuery Q} {s : StatInst E} {v : s.Val} (he : J.world.isStat e = true)
    (hcd : J.world.cached = true) (h : ((J.handle A n (.stat e q s)).run A c).1 = .ok (some v)) :
    HMap.get (CacheKey.eq A) ((J.handle A n (.stat e q s)).run A c).2 ⟨e, q, s⟩ = some (.val s.ty v) ∧
    Storable (E.layout s.ty) := by
  cases n with
  | zero => cases h
  | succ n =>
    suffices key : ∀ x : CProg E Q Ent (Option s.Val), x =
        ((CProg.lift (validate (E.layout s.ty))).bind fun _ =>
          (J.queryStatErased A (J.handle A n) e q s).bind fun o => CProg.lift (StatMap.readAs s o)) →
        (x.run A c).1 = .ok (some v) →
        HMap.get (CacheKey.eq A) (x.run A c).2 ⟨e, q, s⟩ = some (.val s.ty v) ∧ Storable (E.layout s.ty) from
      key (J.handle A (n + 1) (.stat e q s)) rfl h
    clear h
    rintro x rfl h
    by_cases hs : Storable (E.layout s.ty)
    swap
    · simp only [validate_eq, hs, if_false] at h; cases h
    refine ⟨?_, hs⟩
    simp only [validate_eq, hs, if_true, CProg.lift_ok, CProg.bind_ret, Joined.queryStatErased, he,
      Joined.lookup, hcd, CProg.bind_eq, CProg.bind_get, CProg.run_get] at h ⊢
    cases hg : HMap.get (CacheKey.eq A) c ⟨e, q, s⟩ with
    | some b =>
      obtain ⟨v', rfl, -⟩ := hc.get _ hg
      change s.Val at v'
      have hcl : Defaults.cloned s (some (.val s.ty v')) = .ok (some (.val s.ty v')) := by
        simp [Defaults.cloned, vtClone_val hs]
      rw [hg] at h
      simp only [hcl, CProg.lift_ok, CProg.bind_ret, readAs_val hs] at h ⊢
      cases h
      exact hg
    | none =>
      rw [hg] at h
      simp only [Defaults.cloned, CProg.lift_ok, CProg.bind_ret, Joined.miss, CProg.bind_eq, CProg.bind_assoc]
        at h ⊢
      obtain ⟨v0, hv0⟩ := hJ.startValue s hs
      rw [J.compute_eq, hv0, CProg.lift_ok, CProg.bind_ret] at h ⊢
      have hp := (callsCode_safe (X := fun _ => True) (okGet := fun _ _ => True) (okPut := fun _ _ => True)
        (h := J.handle A n) (hJ.statCalls e q) (p := ⟨s, .val s.ty v0⟩) ⟨v0, rfl⟩
        (fun r => (CProg.Good.any _).mono (fun r _ => by cases r <;> trivial)) (fun _ _ => trivial)
        (fun _ _ _ => .inl fun _ _ _ => trivial)).outcome A
          (fun _ => trivial) c
      rw [CProg.run_bind] at h ⊢
      cases hr : (callsCode (J.handle A n) (J.statCalls e q) ⟨s, .val s.ty v0⟩).run A c with
      | mk r c1 =>
        rw [hr] at h hp
        cases r with
        | error x => cases h
        | ok p =>
          obtain ⟨s', b⟩ := p
          obtain ⟨hss, v', hv'⟩ := hp
          change s' = s at hss
          subst hss
          change s'.Val at v'
          change b = .val s'.ty v' at hv'
          subst hv'
          simp only [Joined.remember_eq hs, hcd, if_true, CProg.bind_put, CProg.bind_ret, CProg.run_put,
            readAs_val hs] at h ⊢
          cases h
          exact (HMap.get_insert (CacheKey.eq_iff A) c1 _ _ _).trans (if_pos rfl)

/-- a present entry stays through a request -/
theorem Joined.Safe.keeps (hJ : J.Safe A) (hq : J.Quiet) {c : Cache E Q Ent} (hc : CacheTyped c) {key : CacheKey E Q Ent}
    {b : Buf E} (hb : HMap.get (CacheKey.eq A) c key = some b) (n : Nat) (r : Req E Q Ent) :
    CacheTyped ((J.handle A n r).run A c).2 ∧
      HMap.get (CacheKey.eq A) ((J.handle A n r).run A c).2 key = some b := by
  refine ((hJ.typedCode
    (okGet := fun k o => (∀ b, o = some b → TypedEntry k b) ∧ (k = key → o = some b))
    (okPut := fun k b => TypedEntry k b ∧ k ≠ key) (fun _ b h => h.1 b rfl)
    (fun k b' h ht => ⟨ht, fun hk => by cases h.2 hk⟩) (.inr hq.noStore) n r).run_noClear
    (fun c => CacheTyped c ∧ HMap.get (CacheKey.eq A) c key = some b) ?_ ?_ (hq.noClear A n r) ⟨hc, hb⟩).2
  · exact fun c' h k => ⟨fun b' hb' => h.1.get k hb', fun hk => by rw [hk]; exact h.2⟩
  · rintro c' k b' ⟨h1, h2⟩ ⟨h3, h4⟩
    exact ⟨h1.insert h3, by rw [HMap.get_insert (CacheKey.eq_iff A), if_neg h4]; exact h2⟩

theorem history_keeps (evs : List (Event E Q Ent)) (hs : SafeChanges A evs)
    (J : Joined E Q Ent) (hn : NotCleared J evs) (hJ : J.Safe A) (c : Cache E Q Ent) (hc : CacheTyped c) (key : CacheKey E Q Ent)
    (b : Buf E) (hb : HMap.get (CacheKey.eq A) c key = some b) :
    HMap.get (CacheKey.eq A) (history A J c evs).2 key = some b := by
  induction evs generalizing J c with
  | nil => exact hb
  | cons ev evs ih =>
    have hs' : SafeChanges A evs := fun J' hJ' => hs J' (List.mem_cons_of_mem _ hJ')
    cases ev with
    | query n r =>
      have h1 := hJ.keeps hn.1 hc hb n r
      exact ih hs' J hn.2 hJ _ h1.1 h1.2
    | clear => exact hn.elim
    | change J' => exact ih hs' J' hn (hs J' List.mem_cons_self) c hc hb

theorem history_typed (evs : List (Event E Q Ent)) (hs : SafeChanges A evs)
    (J : Joined E Q Ent) (hJ : J.Safe A) (c : Cache E Q Ent) (hc : CacheTyped c) :
    CacheTyped (history A J c evs).2 ∧ ∀ o ∈ (history A J c evs).1, o.res ≠ .error .ub := by
  induction evs generalizing J c with
  | nil => exact ⟨hc, fun o ho => by cases ho⟩
  | cons ev evs ih =>
    have hs' : SafeChanges A evs := fun J' hJ' => hs J' (List.mem_cons_of_mem _ hJ')
    cases ev with
    | query n r =>
      have h1 := hJ.run_typed hc n r
      have h2 := ih hs' J hJ _ h1.2
      refine ⟨h2.1, fun o ho => ?_⟩
      simp only [history, List.mem_cons] at ho
      rcases ho with rfl | ho
      · intro hub
        have h3 := h1.1
        change ((J.handle A n r).run A c).1 = .error .ub at hub
        rw [hub] at h3
        exact h3 rfl
      · exact h2.2 o ho
    | clear =>
      simp only [history, hc.clear]
      exact ih hs' J hJ [] (fun x hx => by cases hx)
    | change J' => exact ih hs' J' (hs J' List.mem_cons_self) c hc

/-- C49, for well-behaved streams: after any history, if a cached query on a `StatEntity` succeeds, the same
query gives the same value after any further queries, world changes and changes of the joined streams without
a clear (be it from outside or by a stream), as long as the entity is a `StatEntity` and the cache exists -/
theorem C49_stays_partial (J₀ : Joined E Q Ent) (before : List (Event E Q Ent)) (J : Joined E Q Ent)
    (hJ : J.Safe A) (n : Nat) (e : Ent) (q : QualifierQuery Q)
    (s : StatInst E) (v : s.Val) (he : J.world.isStat e = true) (hc : J.world.cached = true)
    (h : ((J.handle A n (.stat e q s)).run A (history A J₀ [] before).2).1 = .ok (some v))
    (after : List (Event E Q Ent)) (ha : SafeChanges A after) (hn : NotCleared J after)
    (J' : Joined E Q Ent) (he' : J'.world.isStat e = true) (hc' : J'.world.cached = true) (m : Nat) :
    ((J'.handle A (m + 1) (.stat e q s)).run A
      (history A J ((J.handle A n (.stat e q s)).run A (history A J₀ [] before).2).2 after).2).1 = .ok (some v) := by
  have ht := history_cacheTyped (A := A) before J₀ (c := []) (fun x hx => by cases hx)
  obtain ⟨hk, hs⟩ := hJ.remembers ht he hc h
  have hk' := history_keeps after ha J hn hJ _ (hJ.run_typed ht n _).2 _ _ hk
  rw [C52_cached A J' m _ e q s v hs he' hc' hk']

/-- C49, for well-behaved streams: after any history, clearing succeeds and the next query gives the result of
the current world and streams -/
theorem C49_recomputed_partial (J₀ : Joined E Q Ent) (before : List (Event E Q Ent)) (J : Joined E Q Ent)
    (hJ : J.Right A) (n : Nat) (r : Req E Q Ent) :
    ∃ c, (history A J₀ [] before).2.clear = .ok c ∧ Faithful A J n r ((J.handle A n r).run A c).1 :=
  ⟨[], (history_cacheTyped before J₀ (fun x hx => by cases hx)).clear,
    (hJ.run_valid (fun x hx => by cases hx) n r).1⟩

/-- in the demo world the first query gives 211; after entity 0 loses its components it still does -/
example (m : Nat) : ((demoOther.handle demoAddr (m + 1) (.stat 0 demoQ (demoInt 0))).run demoAddr
    (history demoAddr demoJoined ((demoJoined.handle demoAddr 1 (.stat 0 demoQ (demoInt 0))).run demoAddr []).2
      [.change demoOther]).2).1 = (.ok (some ⟨211, -2147483648, 2147483647, 1⟩) : Res (Option StatInt)) :=
  C49_stays_partial demoJoined [] demoJoined demoJoined_safe 1 0 demoQ
    (demoInt 0) ⟨211, -2147483648, 2147483647, 1⟩ rfl rfl rfl [.change demoOther]
    (by intro J hJ; cases List.mem_singleton.1 hJ; exact demoOther_safe)
    trivial demoOther rfl rfl m
example : demoOther.answer demoAddr 1 (.stat 0 demoQ (demoInt 0)) =
    (.ok (some ⟨1, -2147483648, 2147483647, 1⟩) : Res (Option StatInt)) := rfl
/-- the same with more queries in between, of streams that do not clear the cache -/
example : NotCleared demoJoined [.query 3 (.stat 1 demoQ (demoInt 0)), .change demoOther,
    .query 1 (.attr 1 "one")] := by
  exact ⟨demoJoined_quiet, demoOther_quiet, trivial⟩
/-- after a query of a stream that clears, the value is that of the current world -/
example : ((demoOther.handle demoAddr 1 (.stat 0 demoQ (demoInt 0))).run demoAddr
    (history demoAddr demoJoined ((demoJoined.handle demoAddr 1 (.stat 0 demoQ (demoInt 0))).run demoAddr []).2
      [.change demoWiping, .query 1 (.stat 1 demoQ (demoInt 0)), .change demoOther]).2).1 =
    (.ok (some ⟨1, -2147483648, 2147483647, 1⟩) : Res (Option StatInt)) := rfl

/-- C49 fails as stated: a stream that replaces the pair makes the value be cached under another stat, so
after a change of the world the same query gives another result, without a clear -/
theorem C49_refuted : ∃ (J J' : Joined demo (BitVec 8) Nat) (r : Req demo (BitVec 8) Nat) (v w : r.Resp),
    J.world = J'.world ∧ J.world.cached = true ∧ J.world.isStat 0 = true ∧
    ((J.handle demoAddr 1 r).run demoAddr []).1 = .ok v ∧
    ((J'.handle demoAddr 1 r).run demoAddr ((J.handle demoAddr 1 r).run demoAddr []).2).1 = .ok w ∧ v ≠ w :=
  ⟨demoSwapped, ({ demoWorld with relations := none }).withComponent demoComp, .stat 0 demoQ (demoInt 0),
    some ⟨7, 0, 10, 1⟩, some ⟨10, -2147483648, 2147483647, 1⟩, rfl, rfl, rfl, rfl, rfl, by
      change (some _ : Option StatInt) ≠ some _
      simp⟩

/-! ### C50 -/

/-- what holds of each thread -/
def Thread.Ok (A : Addr E) (J : Joined E Q Ent) (t : Thread E Q Ent) : Prop :=
  CProg.Good (ValidGet A J) (ValidEntry A J) (Faith (fun m => J.answer A m t.req) t.depth) t.code

/-- an invariant of the cache that the code of all requests keeps -/
theorem Reachable.good {okGet : CacheKey E Q Ent → Option (Buf E) → Prop} {okPut : CacheKey E Q Ent → Buf E → Prop}
    {P : (n : Nat) → (r : Req E Q Ent) → Res r.Resp → Prop} (Inv : Cache E Q Ent → Prop)
    (hcode : ∀ n r, CProg.Good okGet okPut (P n r) (J.handle A n r))
    (hget : ∀ c, Inv c → ∀ k, okGet k (HMap.get (CacheKey.eq A) c k))
    (hput : ∀ c k b, Inv c → okPut k b → Inv (HMap.insert (CacheKey.eq A) c k b).1)
    (hclear : ∀ c, Inv c → c.clear = .ok []) (hnil : Inv []) {s : Conf E Q Ent} (h : Reachable A J s) :
    Inv s.cache ∧ ∀ t ∈ s.threads, CProg.Good okGet okPut (P t.depth t.req) t.code := by
  induction h with
  | init => exact ⟨hnil, fun t ht => (by cases ht)⟩
  | step _ hstep ih =>
    obtain ⟨hc, ht⟩ := ih
    cases hstep with
    | start c ts n r =>
      refine ⟨hc, fun t h => ?_⟩
      rcases List.mem_append.1 h with h | h
      · exact ht t h
      · cases List.mem_singleton.1 h
        exact hcode n r
    | get c ts i n r k f hi =>
      refine ⟨hc, fun t h => ?_⟩
      rcases List.mem_or_eq_of_mem_set h with h | rfl
      · exact ht t h
      · exact ht _ (List.mem_of_getElem? hi) _ (hget c hc k)
    | put c ts i n r k b f hi =>
      have hp := ht _ (List.mem_of_getElem? hi)
      refine ⟨hput _ _ _ hc hp.1, fun t h => ?_⟩
      rcases List.mem_or_eq_of_mem_set h with h | rfl
      · exact ht t h
      · exact hp.2
    | clear c c' ts h =>
      rw [hclear c hc] at h
      cases h
      exact ⟨hnil, ht⟩
    | wipe c c' ts i n r f hi h =>
      rw [hclear c hc] at h
      cases h
      refine ⟨hnil, fun t h => ?_⟩
      rcases List.mem_or_eq_of_mem_set h with h | rfl
      · exact ht t h
      · exact (show CProg.Good okGet okPut (P n r) (.clear f) from ht _ (List.mem_of_getElem? hi))
    | wipeFail c e ts i n r f hi h =>
      rw [hclear c hc] at h
      cases h

theorem Reachable.invariant (hJ : J.Right A) {s : Conf E Q Ent} (h : Reachable A J s) :
    CacheValid A J s.cache ∧ ∀ t ∈ s.threads, t.Ok A J :=
  h.good (P := fun n r => Faith (fun m => J.answer A m r) n) (CacheValid A J) (fun n r => hJ.faithful n r)
    (fun _ h k => h.get k) (fun _ _ _ h hb => h.insert hb) (fun _ h => h.typed.clear) (fun x hx => by cases hx)

theorem Reachable.typed (hJ : J.Safe A) {s : Conf E Q Ent} (h : Reachable A J s) :
    CacheTyped s.cache ∧ ∀ t ∈ s.threads,
      CProg.Good (fun k o => ∀ b, o = some b → TypedEntry k b) TypedEntry (ErrIn (· ≠ .ub)) t.code :=
  h.good (P := fun _ _ => ErrIn (· ≠ .ub)) CacheTyped
    (fun n r => hJ.typedCode (fun _ b h => h b rfl) (fun _ _ _ h => h) (.inl fun _ _ h => h) n r)
    (fun _ h k _ hb => h.get k hb) (fun _ _ _ h hb => h.insert hb) (fun _ h => h.clear) (fun x hx => by cases hx)

/-- whatever the streams do, the cached values have the types of their stats -/
theorem Reachable.cacheTyped {s : Conf E Q Ent} (h : Reachable A J s) : CacheTyped s.cache :=
  (h.good (P := fun _ _ _ => True) CacheTyped (fun n r => J.putsTyped A n r) (fun _ _ _ => trivial)
    (fun _ _ _ h hb => h.insert hb) (fun _ h => h.clear) (fun x hx => by cases hx)).1

/-- C50, for well-behaved streams: however many threads query over an unchanged world, interleaved with each
other and with clears, each query that has finished has the result it has without a cache -/
theorem C50_concurrent_partial (hJ : J.Right A) (s : Conf E Q Ent) (h : Reachable A J s) :
    ∀ t ∈ s.threads, (∀ x, t.code = .ret x → Faithful A J t.depth t.req (.ok x)) ∧
      (∀ x, t.code = .fail x → Faithful A J t.depth t.req (.error x)) := by
  intro t ht
  have := (h.invariant hJ).2 t ht
  unfold Thread.Ok at this
  constructor
  · intro x hx
    rw [hx] at this
    exact this
  · intro x hx
    rw [hx] at this
    exact this

/-- C50: whatever well-behaved streams store in the cache themselves, right or wrong, no query ends in undefined
behaviour -/
theorem C50_no_misread_partial (hJ : J.Safe A) (s : Conf E Q Ent) (h : Reachable A J s) :
    ∀ t ∈ s.threads, t.code ≠ .fail .ub := by
  intro t ht hx
  have := (h.typed hJ).2 t ht
  rw [hx] at this
  exact this rfl

/-- C50: whatever the streams do, nothing gets stuck: clearing always succeeds, and each query that has not finished can go on -/
theorem C50_progress (s : Conf E Q Ent) (h : Reachable A J s) :
    Step A J s ⟨[], s.threads⟩ ∧
    ∀ i t, s.threads[i]? = some t →
      (∃ x, t.code = .ret x) ∨ (∃ x, t.code = .fail x) ∨
      ∃ c' code', Step A J s ⟨c', s.threads.set i ⟨t.depth, t.req, code'⟩⟩ := by
  obtain ⟨c, ts⟩ := s
  constructor
  · exact Step.clear c [] ts h.cacheTyped.clear
  · rintro i ⟨n, r, code⟩ hi
    cases code with
    | ret x => exact .inl ⟨x, rfl⟩
    | fail x => exact .inr (.inl ⟨x, rfl⟩)
    | get k f => exact .inr (.inr ⟨_, _, Step.get c ts i n r k f hi⟩)
    | put k b f => exact .inr (.inr ⟨_, _, Step.put c ts i n r k b f hi⟩)
    | clear f => exact .inr (.inr ⟨_, _, Step.wipe c [] ts i n r f hi h.cacheTyped.clear⟩)

theorem Reachable.sequential {x : CProg E Q Ent α} {r : Req E Q Ent} (hα : α = r.Resp) {c : Cache E Q Ent}
    {ts : List (Thread E Q Ent)} {n : Nat} (h : Reachable A J ⟨c, ts ++ [⟨n, r, hα ▸ x⟩]⟩) :
    Reachable A J ⟨(x.run A c).2, ts ++ [⟨n, r, CProg.lift (hα ▸ (x.run A c).1)⟩]⟩ := by
  subst hα
  change Reachable A J ⟨c, ts ++ [⟨n, r, x⟩]⟩ at h
  change Reachable A J ⟨(x.run A c).2, ts ++ [⟨n, r, CProg.lift (x.run A c).1⟩]⟩
  have hi : ∀ t : Thread E Q Ent, (ts ++ [t])[ts.length]? = some t := by intro t; simp
  have hset : ∀ t t' : Thread E Q Ent, (ts ++ [t]).set ts.length t' = ts ++ [t'] := by intro t t'; simp
  induction x generalizing c with
  | ret a => exact h
  | fail e => exact h
  | get k f ih =>
    refine ih _ (c := c) ?_
    have := h.step (Step.get c _ ts.length n r k f (hi _))
    rwa [hset] at this
  | put k b f ih =>
    refine ih (c := (HMap.insert (CacheKey.eq A) c k b).1) ?_
    have := h.step (Step.put c _ ts.length n r k b f (hi _))
    rwa [hset] at this
  | clear f ih =>
    rw [CProg.run_clear]
    cases hc : c.clear with
    | ok c' =>
      refine ih (c := c') ?_
      have := h.step (Step.wipe c c' _ ts.length n r f (hi _) hc)
      rwa [hset] at this
    | error e =>
      have := h.step (Step.wipeFail c e _ ts.length n r f (hi _) hc)
      rwa [hset] at this

/-- C50: running one query to completion, with nothing in between, is one of the interleavings -/
theorem C50_sequential {s : Conf E Q Ent} (h : Reachable A J s) (n : Nat) (r : Req E Q Ent) :
    Reachable A J ⟨((J.handle A n r).run A s.cache).2,
      s.threads ++ [⟨n, r, CProg.lift ((J.handle A n r).run A s.cache).1⟩]⟩ :=
  Reachable.sequential rfl (h.step (Step.start s.cache s.threads n r))

/-- a state of the demo world with two queries, the first of which has found nothing in the cache and not
stored its result yet, while the second has finished -/
example : ∃ t, Reachable demoAddr demoJoined ⟨((demoJoined.handle demoAddr 1 (.stat 0 demoQ (demoInt 0))).run
    demoAddr []).2, [t, ⟨1, .stat 0 demoQ (demoInt 0),
      .ret (some ⟨211, -2147483648, 2147483647, 1⟩ : Option StatInt)⟩]⟩ ∧
    ∀ x, t.code ≠ .ret x := by
  have h1 := (Reachable.init (A := demoAddr) (J := demoJoined)).step
    (Step.start [] [] 1 (.stat 0 demoQ (demoInt 0)))
  have h2 := h1.step (Step.get [] _ 0 1 _ _ _ rfl)
  exact ⟨_, C50_sequential h2 1 (.stat 0 demoQ (demoInt 0)), fun x hx => by cases hx⟩

/-- C50 fails as stated for streams that replace the pair -/
theorem C50_refuted : ∃ (J : Joined demo (BitVec 8) Nat) (s : Conf demo (BitVec 8) Nat),
    Reachable demoAddr J s ∧ ∃ t ∈ s.threads, ∃ x, t.code = .ret x ∧
      ¬ Faithful demoAddr J t.depth t.req (.ok x) := by
  have h := C50_sequential (C50_sequential (Reachable.init (A := demoAddr) (J := demoSwapped)) 1
    (.stat 0 demoQ (demoInt 0))) 1 (.stat 0 demoQ (demoInt 1))
  refine ⟨demoSwapped, _, h, ⟨1, .stat 0 demoQ (demoInt 1), .ret (some ⟨7, 0, 10, 1⟩ : Option StatInt)⟩, ?_,
    (some ⟨7, 0, 10, 1⟩ : Option StatInt), rfl, ?_⟩
  · right; left
  · rintro ⟨h, -⟩
    have h1 : demoSwapped.answer demoAddr 1 (.stat 0 demoQ (demoInt 1)) =
        (.ok (some ⟨0, -2147483648, 2147483647, 1⟩) : Res (Option StatInt)) := rfl
    have h2 := h1.symm.trans (h (fun hh => by cases h1.symm.trans hh)).symm
    cases h2

/-! ### C51 -/

/-- C51 fails: `demoJoined` joins three streams, `demoOther` only one.  After a query through the first, the
same query through the second, over the same world and cache, returns the first one's result. -/
theorem C51_refuted : ∃ (J J' : Joined demo (BitVec 8) Nat) (r : Req demo (BitVec 8) Nat) (v w : r.Resp),
    J.Honest demoAddr ∧ J'.Honest demoAddr ∧ J.world = J'.world ∧
    J'.answer demoAddr 1 r = .ok w ∧ ((J'.handle demoAddr 1 r).run demoAddr []).1 = .ok w ∧
    ((J'.handle demoAddr 1 r).run demoAddr ((J.handle demoAddr 1 r).run demoAddr []).2).1 = .ok v ∧ v ≠ w :=
  ⟨demoJoined, demoOther, .stat 0 demoQ (demoInt 0), some ⟨211, -2147483648, 2147483647, 1⟩,
    some ⟨1, -2147483648, 2147483647, 1⟩, demoJoined_honest, demoOther_honest, rfl, rfl, rfl, rfl, by
      change (some _ : Option StatInt) ≠ some _
      simp⟩

/-- C51, what does hold: if each result of the first querier is also a result of the second (for instance
because they join the same streams in another order, C44), queries through the first do not affect those
through the second -/
theorem C51_agreeing_partial (J J' : Joined E Q Ent) (hJ : J.Right A) (hJ' : J'.Right A)
    (hag : ∀ e q s v n, J.answer A n (.stat e q s) = .ok (some v) →
      ∃ m, J'.answer A m (.stat e q s) = .ok (some v))
    (evs : List (Event E Q Ent)) (hq : ∀ ev ∈ evs, ev.isQuery = true ∨ ev = .clear) (n : Nat) (r : Req E Q Ent) :
    Faithful A J' n r ((J'.handle A n r).run A (history A J [] evs).2).1 := by
  have hv : ∀ c, CacheValid A J c → CacheValid A J (history A J c evs).2 := by
    induction evs with
    | nil => exact fun c hc => hc
    | cons ev evs ih =>
      have ih' := ih (fun ev h => hq ev (List.mem_cons_of_mem _ h))
      intro c hc
      cases ev with
      | query n r => exact ih' _ (hJ.run_valid hc n r).2
      | clear =>
        simp only [history, hc.typed.clear]
        exact ih' [] (fun x hx => by cases hx)
      | change J'' => rcases hq _ List.mem_cons_self with h | h <;> cases h
  refine (hJ'.run_valid (fun x hx => ?_) n r).1
  obtain ⟨v, h1, h2, m, h3⟩ := hv [] (fun x hx => by cases hx) x hx
  exact ⟨v, h1, h2, hag _ _ _ _ _ h3⟩

theorem CProg.Pure.run_noClear {x : CProg E Q Ent α} (h : x.Pure) (hn : x.NoClear) (c : Cache E Q Ent) :
    x.run A c = (x.cold, c) := by
  cases x with
  | ret a => rfl
  | fail e => rfl
  | get _ _ => exact h.elim
  | put _ _ _ => exact h.elim
  | clear _ => exact hn.elim

theorem CProg.Pure.run_typed {x : CProg E Q Ent α} (h : x.Pure) {c : Cache E Q Ent} (hc : CacheTyped c) :
    (x.run A c).1 = x.cold ∧ ((x.run A c).2 = c ∨ (x.run A c).2 = []) := by
  induction x generalizing c with
  | ret a => exact ⟨rfl, .inl rfl⟩
  | fail e => exact ⟨rfl, .inl rfl⟩
  | get _ _ => exact h.elim
  | put _ _ _ => exact h.elim
  | clear f ih =>
    rw [CProg.run_clear, hc.clear]
    obtain ⟨h1, h2⟩ := ih h (c := []) (fun x hx => by cases hx)
    exact ⟨h1, .inr (h2.elim id id)⟩

theorem Joined.handle_pure (J : Joined E Q Ent) (hc : J.world.cached = false) (hn : J.NoStore) (n : Nat)
    (r : Req E Q Ent) : (J.handle A n r).Pure := by
  induction n generalizing r with
  | zero => trivial
  | succ n ih =>
    have hlift : ∀ {β : Type} (x : Res β), (CProg.lift x : CProg E Q Ent β).Pure := CProg.Pure.lift
    cases r with
    | relation a b q s => exact C46_no_cache_access A J _ ih a b q s (hn.relation a b q)
    | stat e q s =>
      change ((CProg.lift (validate (E.layout s.ty))).bind fun _ => _).Pure
      refine (hlift _).bind fun _ => CProg.Pure.bind ?_ fun _ => hlift _
      unfold Joined.queryStatErased
      simp only [Joined.lookup, hc, Joined.miss, Joined.remember, J.compute_eq, CProg.bind_eq, Bool.false_eq_true,
        if_false, CProg.bind_ret]
      split
      · exact CProg.Pure.bind (CProg.Pure.bind (hlift _) fun _ => callsCode_pure ih _ _ (hn.stat e q))
          fun _ => trivial
      · trivial
    | attr e a =>
      change (J.hasAttributeErased _ e a).Pure
      rw [J.hasAttributeErased_eq]
      have hn := hn.attr e a
      revert hn
      induction J.attrCalls e a with
      | nil => exact fun _ => trivial
      | cons x l ihl =>
        intro hn
        refine (Prog.interp_pure ih _ (hn x List.mem_cons_self)).bind fun b => ?_
        cases b
        · exact ihl fun c hc => hn c (List.mem_cons_of_mem _ hc)
        · trivial

theorem Joined.noCache_eq (J : Joined E Q Ent) (hc : J.world.cached = false) : J.noCache = J := by
  obtain ⟨w, _, _, _⟩ := J
  obtain ⟨_, _, _, _, _, _⟩ := w
  change _ = false at hc
  subst hc
  rfl

/-- C51: without a cache there is nothing to share: the result is the uncached one whatever a cache would
contain, for any streams that do not touch it themselves -/
theorem C51_no_cache (J : Joined E Q Ent) (hc : J.world.cached = false) (hq : J.Quiet) (c : Cache E Q Ent) (n : Nat)
    (r : Req E Q Ent) : (J.handle A n r).run A c = (J.answer A n r, c) := by
  rw [(J.handle_pure hc hq.noStore n r).run_noClear (hq.noClear A n r), Joined.answer, J.noCache_eq hc]

/-- C51: and for streams that may clear it, whatever a cache would contain as long as it can be dropped -/
theorem C51_no_cache_clearing (J : Joined E Q Ent) (hc : J.world.cached = false) (hn : J.NoStore) (c : Cache E Q Ent)
    (ht : CacheTyped c) (n : Nat) (r : Req E Q Ent) : ((J.handle A n r).run A c).1 = J.answer A n r ∧
      (((J.handle A n r).run A c).2 = c ∨ ((J.handle A n r).run A c).2 = []) := by
  have := (J.handle_pure (A := A) hc hn n r).run_typed (A := A) ht
  rwa [Joined.answer, J.noCache_eq hc]

/-- the two demo worlds without a cache -/
example (c : Cache demo (BitVec 8) Nat) (n : Nat) (r : Req demo (BitVec 8) Nat) :
    (demoSwapped.noCache.handle demoAddr n r).run demoAddr c = (demoSwapped.noCache.answer demoAddr n r, c) :=
  C51_no_cache demoSwapped.noCache rfl (.of_streams (fun g hg => by cases hg)
    (fun st hst e it _ this q p => by
      cases List.mem_singleton.1 hst
      change (if p.is demoAddr (demoInt 0) then _ else _ : DProg (Pair demo)).Quiet
      split
      · exact .lift _
      · trivial)
    (fun st hst => by cases hst) (fun st hst e it _ this a => by cases List.mem_singleton.1 hst; trivial)) c n r
/-- one with a stream that clears -/
example (n : Nat) (r : Req demo (BitVec 8) Nat) :
    ((demoWiping.noCache.handle demoAddr n r).run demoAddr
      ((demoJoined.handle demoAddr 1 (.stat 0 demoQ (demoInt 0))).run demoAddr []).2).1 =
      demoWiping.noCache.answer demoAddr n r :=
  (C51_no_cache_clearing demoWiping.noCache rfl
    ⟨demoWiping_noStore.stat, demoWiping_noStore.relation, demoWiping_noStore.attr⟩ _
    (demoJoined_safe.run_typed (fun x hx => by cases hx) 1 (.stat 0 demoQ (demoInt 0))).2 n r).1

/-! ### C55 -/

/-- C55, for well-behaved streams: no history of queries, clears and changes leads to a value being
reinterpreted at another type: no query ends in undefined behaviour -/
theorem C55_result_type_partial (J : Joined E Q Ent) (evs : List (Event E Q Ent)) (hJ : J.Safe A)
    (hs : SafeChanges A evs) : ∀ o ∈ (history A J [] evs).1, o.res ≠ .error .ub :=
  (history_typed evs hs J hJ [] (fun x hx => by cases hx)).2

example : ∀ o ∈ (history demoAddr demoJoined [] demoEvents).1, o.res ≠ .error .ub :=
  C55_result_type_partial demoJoined demoEvents demoJoined_safe
    (by intro J hJ
        simp only [demoEvents, List.mem_cons, reduceCtorEq, List.not_mem_nil, false_or, or_false,
          Event.change.injEq] at hJ
        subst hJ; exact demoOther_safe)

/-- user code in safe Rust: `*pair = StatValuePair::new(&flag(0), flags)` -/
def demoRetype : CStream demo (BitVec 8) Nat where
  Item := Unit
  query _ := some ()
  stream _ _ _ _ := .lift (Pair.new (demoFlag 0) ⟨1, 2⟩)

/-- C55 fails as stated: a stream in safe code replaces the pair by one of a flag stat; the query of an
integer stat then reads the flags as an integer stat, with or without a cache -/
theorem C55_refuted : ∃ J : Joined demo (BitVec 8) Nat,
    ((J.handle demoAddr 1 (.stat 0 demoQ (demoInt 0))).run demoAddr []).1 = .error .ub ∧
    J.answer demoAddr 1 (.stat 0 demoQ (demoInt 0)) = .error .ub :=
  ⟨demoWorld.withComponent demoRetype, rfl, rfl⟩

end BSQ
