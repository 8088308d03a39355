import Verif.Proofs.CacheTrace
import Verif.Props.Ledger
/-!
# C93: results are computed once

Inserting under a key in use leaks the value it replaces (C58), and means that a result was computed although it was
there.  Queries of one thread never do that.
-/
namespace BSQ
set_option linter.unusedSectionVars false
variable {E : Env} {Q Ent : Type} [DecidableEq Q] [DecidableEq Ent] {A : Addr E}

theorem history_noneTwice (evs : List (Event E Q Ent)) (J : Joined E Q Ent) (c : Cache E Q Ent) (stale : Bool)
    (hJ : J.Safe A) (hn : J.NoStore) (hs : SafeChanges A evs) (hns : ∀ J', Event.change J' ∈ evs → J'.NoStore) (hc : CacheTyped c) (hv : stale = false → CacheValid A J c)
    (h : Cleared stale evs) (ks : List (CacheKey E Q Ent)) (hks : KeysOf A c ks) :
    NoneTwice ks (historyAccesses A J c evs) := by
  induction evs generalizing J c stale ks with
  | nil => trivial
  | cons ev evs ih =>
    have hs' : SafeChanges A evs := fun J' hJ' => hs J' (List.mem_cons_of_mem _ hJ')
    have hns' : ∀ J', Event.change J' ∈ evs → J'.NoStore := fun J' hJ' => hns J' (List.mem_cons_of_mem _ hJ')
    cases ev with
    | query n r =>
      obtain ⟨rfl, h⟩ := h
      obtain ⟨h1, h2⟩ := hJ.freshOn hn n r c (hv rfl)
      exact h1.noneTwice hks _ fun ks' hks' => ih J _ false hJ hn hs' hns' h2.typed (fun _ => h2) h ks' hks'
    | clear =>
      simp only [historyAccesses, hc.clear, NoneTwice]
      exact ih J [] false hJ hn hs' hns' (fun x hx => by cases hx) (fun _ x hx => by cases hx) h [] (fun k => by simp [HMap.get])
    | change J' => exact ih J' c true (hs J' List.mem_cons_self) (hns J' List.mem_cons_self) hs' hns' hc (fun h => by cases h) h ks hks

/-- C93: in any history of queries by one thread, of clears, and of changes of the world or of the joined streams each
followed by a clear before the next query, each result is stored at most once between two clears, also if streams
clear the cache in mid-query, and also if queries panic; streams store nothing themselves (`C94_leaks`) -/
theorem C93_once (J : Joined E Q Ent) (evs : List (Event E Q Ent)) (hJ : J.Safe A) (hn : J.NoStore)
    (hs : SafeChanges A evs) (hns : ∀ J', Event.change J' ∈ evs → J'.NoStore)
    (h : Cleared false evs) : NoneTwice [] (historyAccesses A J [] evs) :=
  history_noneTwice evs J [] false hJ hn hs hns (fun x hx => by cases hx) (fun _ x hx => by cases hx) h []
    (fun k => by simp [HMap.get])

/-! ### no leak -/

theorem CProg.accesses_kind {α : Type} (x : CProg E Q Ent α) (c : Cache E Q Ent) :
    ∀ o ∈ x.accesses A c, (∃ k, o = .lookup k) ∨ (∃ k, o = .insert k) ∨ o = .clear := by
  induction x generalizing c with
  | ret a => intro o ho; cases ho
  | fail e => intro o ho; cases ho
  | get k g ih =>
    intro o ho
    rcases List.mem_cons.1 ho with rfl | ho
    · exact Or.inl ⟨k, rfl⟩
    · exact ih _ c o ho
  | put k b g ih =>
    intro o ho
    rcases List.mem_cons.1 ho with rfl | ho
    · exact Or.inr (Or.inl ⟨k, rfl⟩)
    · exact ih _ o ho
  | clear g ih =>
    intro o ho
    rcases List.mem_cons.1 ho with rfl | ho
    · exact Or.inr (Or.inr rfl)
    · cases hc : c.clear with
      | ok c' => rw [hc] at ho; exact ih c' o ho
      | error e => rw [hc] at ho; cases ho

theorem historyAccesses_kind (J : Joined E Q Ent) (c : Cache E Q Ent) (evs : List (Event E Q Ent)) :
    ∀ o ∈ historyAccesses A J c evs, (∃ k, o = .lookup k) ∨ (∃ k, o = .insert k) ∨ o = .clear := by
  induction evs generalizing J c with
  | nil => intro o ho; cases ho
  | cons ev evs ih =>
    cases ev with
    | query n r =>
      intro o ho
      rcases List.mem_append.1 ho with ho | ho
      · exact CProg.accesses_kind _ c o ho
      · exact ih J _ o ho
    | clear =>
      intro o ho
      rcases List.mem_cons.1 ho with rfl | ho
      · exact Or.inr (Or.inr rfl)
      · cases hc : c.clear with
        | ok c' => rw [hc] at ho; exact ih J c' o ho
        | error e => rw [hc] at ho; cases ho
    | change J' => exact ih J' c

theorem NoneTwice.leaks {K : Type} [DecidableEq K] {ty : K → E.U} {ks ks' : List K} {os : List (HOp E K)}
    (h : NoneTwice ks os) (hk : ∀ k ∈ ks', k ∈ ks)
    (ho : ∀ o ∈ os, (∃ k, o = .lookup k) ∨ (∃ k, o = .insert k) ∨ o = .clear) :
    KHash.leaks ty ks' os = 0 ∧ KHash.Tame ty ks' os := by
  induction os generalizing ks ks' with
  | nil => exact ⟨rfl, trivial⟩
  | cons o os ih =>
    have ih' := fun ks ks' h hk => @ih ks ks' h hk (fun o h => ho o (List.mem_cons_of_mem _ h))
    rcases ho o List.mem_cons_self with ⟨k, rfl⟩ | ⟨k, rfl⟩ | rfl
    · have := ih' ks ks' h hk
      simpa [KHash.leaks, KHash.Tame, KHash.step] using this
    · have h1 : k ∉ ks' := fun hk' => h.1 (hk k hk')
      by_cases hs : Storable (E.layout (ty k))
      · have := ih' (k :: ks) (ks' ++ [k]) h.2 (by simp +contextual [or_imp, hk])
        simpa [KHash.leaks, KHash.Tame, KHash.step, hs, h1] using this
      · have := ih' (k :: ks) ks' h.2 (by simp +contextual [hk])
        simpa [KHash.leaks, KHash.Tame, KHash.step, hs, h1] using this
    · have := ih' [] [] h (by simp)
      simpa [KHash.leaks, KHash.Tame, KHash.step] using this

/-- C93: in such a history followed by dropping the cache, every value put into the cache is dropped, at its own type
and once; so the leak of C58 cannot be caused by queries of one thread -/
theorem C93_no_leak (J : Joined E Q Ent) (evs : List (Event E Q Ent)) (hJ : J.Safe A) (hn : J.NoStore)
    (hs : SafeChanges A evs) (hns : ∀ J', Event.change J' ∈ evs → J'.NoStore)
    (h : Cleared false evs) (opTy : CacheKey E Q Ent → E.U) :
    let log := ((HState.run (CacheKey.eq A) (fun k => k.stat.ty) opTy (historyAccesses A J [] evs)).finish
      (fun k => k.stat.ty)).log
    Sound log ∧ unreleased log = [] := by
  classical
  obtain ⟨h1, h2⟩ := (C93_once J evs hJ hn hs hns h).leaks (ty := fun k => k.stat.ty) (ks' := []) (by simp)
    (historyAccesses_kind J [] evs)
  exact ⟨C58_sound_partial (CacheKey.eq_iff A) opTy _ h2,
    List.length_eq_zero_iff.1 ((C58_exact_partial (CacheKey.eq_iff A) opTy _ h2).trans h1)⟩

/-- C93, non-vacuity: three lookups and two stores, with a clear in between -/
example : NoneTwice [] (historyAccesses demoAddr demoJoined [] demoEvents) ∧
    historyAccesses demoAddr demoJoined [] demoEvents =
      [.lookup ⟨0, demoQ, demoInt 0⟩, .insert ⟨0, demoQ, demoInt 0⟩, .lookup ⟨0, demoQ, demoInt 0⟩, .clear,
       .lookup ⟨0, demoQ, demoInt 0⟩, .insert ⟨0, demoQ, demoInt 0⟩] :=
  ⟨C93_once demoJoined demoEvents demoJoined_safe demoJoined_quiet.noStore
    (by intro J hJ
        simp only [demoEvents, List.mem_cons, reduceCtorEq, List.not_mem_nil, false_or, or_false,
          Event.change.injEq] at hJ
        subst hJ; exact demoOther_safe)
    (by intro J hJ
        simp only [demoEvents, List.mem_cons, reduceCtorEq, List.not_mem_nil, false_or, or_false,
          Event.change.injEq] at hJ
        subst hJ; exact demoOther_quiet.noStore)
    ⟨rfl, rfl, rfl, trivial⟩, rfl⟩

/-! ### where it fails -/

/-- C93 does not hold for several threads: both may find nothing, compute the result and store it -/
theorem C93_threads_overwrite : ∃ (J : Joined demo (BitVec 8) Nat) (s : Conf demo (BitVec 8) Nat),
    J.Safe demoAddr ∧ Reachable demoAddr J s ∧
      ∃ (i n : Nat) (r : Req demo (BitVec 8) Nat) (k : CacheKey demo (BitVec 8) Nat) (b : Buf demo)
        (f : CProg demo (BitVec 8) Nat r.Resp), s.threads[i]? = some ⟨n, r, .put k b f⟩ ∧
      HMap.get (CacheKey.eq demoAddr) s.cache k ≠ none := by
  have h1 := (Reachable.init (A := demoAddr) (J := demoJoined)).step
    (Step.start [] [] 1 (.stat 0 demoQ (demoInt 0)))
  have h2 := h1.step (Step.get [] _ 0 1 _ _ _ rfl)
  have h3 := C50_sequential h2 1 (.stat 0 demoQ (demoInt 0))
  exact ⟨demoJoined, _, demoJoined_safe, h3, 0, 1, _, _, _, _, rfl, by
    intro h; cases h⟩

/-- C93 does not hold for streams that replace the whole pair: the result is stored under the other stat, so that the
same query stores it again -/
theorem C93_swap_overwrites : ∃ (J : Joined demo (BitVec 8) Nat) (evs : List (Event demo (BitVec 8) Nat)),
    Cleared false evs ∧ ¬ NoneTwice [] (historyAccesses demoAddr J [] evs) := by
  refine ⟨demoSwapped, [.query 1 (.stat 0 demoQ (demoInt 0)), .query 1 (.stat 0 demoQ (demoInt 0))],
    ⟨rfl, rfl, trivial⟩, fun h => ?_⟩
  have h' : NoneTwice (E := demo) [] [.lookup ⟨0, demoQ, demoInt 0⟩, .insert ⟨0, demoQ, demoInt 1⟩,
    .lookup ⟨0, demoQ, demoInt 0⟩, .insert (⟨0, demoQ, demoInt 1⟩ : CacheKey demo (BitVec 8) Nat)] := h
  simp [NoneTwice] at h'

end BSQ
