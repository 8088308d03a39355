import Verif.Spec.Snapshot
import Verif.Props.CacheStays
import Verif.Props.MapLocal
/-!
# C135: what stale results are
-/
namespace BSQ
variable {E : Env} {Q Ent α β : Type}

theorem CProg.lift_bind (x : Res α) (f : α → Res β) :
    ((CProg.lift x).bind fun a => CProg.lift (f a) : CProg E Q Ent β) = CProg.lift (x >>= f) := by
  cases x <;> rfl

theorem Prog.Silent.interp {p : Prog E Q Ent α} (hp : p.Silent) (h : Handler E Q Ent) (o : Oracle E Q Ent) :
    p.interp h = CProg.lift (p.eval o) := by
  cases p <;> first | rfl | exact hp.elim

theorem Prog.Silent.lift (x : Res α) : (Prog.lift x : Prog E Q Ent α).Silent := by cases x <;> trivial

theorem Prog.Silent.quiet {p : Prog E Q Ent α} (hp : p.Silent) : p.Quiet := by
  cases p <;> trivial

theorem callsCode_silent {l : List (Call E Q Ent)} (hl : ∀ c ∈ l, ∀ p, (c p).Silent) (h : Handler E Q Ent)
    (o : Oracle E Q Ent) (p : Pair E) : callsCode h l p = CProg.lift (runCalls o l p) := by
  induction l generalizing p with
  | nil => rfl
  | cons c l ih =>
    rw [callsCode, runCalls, (hl c List.mem_cons_self p).interp h o]
    cases (c p).eval o with
    | error x => rfl
    | ok p' => exact ih (fun c hc => hl c (List.mem_cons_of_mem _ hc)) p'

theorem anyCode_silent {l : List (Prog E Q Ent Bool)} (hl : ∀ c ∈ l, c.Silent) (h : Handler E Q Ent)
    (o : Oracle E Q Ent) : anyCode h l = CProg.lift (anyCalls o l) := by
  induction l with
  | nil => rfl
  | cons c l ih =>
    rw [anyCode, anyCalls, (hl c List.mem_cons_self).interp h o]
    cases c.eval o with
    | error x => rfl
    | ok b =>
      cases b
      · exact ih fun c hc => hl c (List.mem_cons_of_mem _ hc)
      · rfl

namespace Joined
variable {A : Addr E} {J : Joined E Q Ent}

theorem Silent.quiet (hJ : J.Silent) : J.Quiet :=
  ⟨fun e q c hc p => (hJ.stat e q c hc p).quiet, fun a b q c hc p => (hJ.relation a b q c hc p).quiet,
    fun e a c hc => (hJ.attr e a c hc).quiet⟩

theorem Silent.relation_code (hJ : J.Silent) (n : Nat) (a b : Ent) (q : QualifierQuery Q) (s : StatInst E) :
    J.handle A n (.relation a b q s) = CProg.lift (J.answer A n (.relation a b q s)) := by
  cases n with
  | zero => rfl
  | succ n =>
    rw [J.answer_succ A]
    change ((CProg.lift (validate (E.layout s.ty))).bind fun _ =>
      (J.queryRelationErased A (J.handle A n) a b q s).bind fun o => CProg.lift (StatMap.readAs s o)) = _
    rw [J.queryRelationErased_eq]
    simp only [ideal]
    cases validate (E.layout s.ty) with
    | error x => rfl
    | ok _ =>
      rw [CProg.lift_ok, CProg.bind_ret]
      by_cases hab : (J.world.isStat a && J.world.isStat b) = true
      · rw [if_pos hab]
        cases hv : J.world.startValue A s with
        | error x => simp [hab]; rfl
        | ok v =>
          simp only [CProg.lift_ok, CProg.bind_ret]
          rw [callsCode_silent (hJ.relation a b q) _ (J.answer A n)]
          cases hr : runCalls (J.answer A n) (J.relationCalls a b q) ⟨s, v⟩ with
          | error x => simp [hab, hr]; rfl
          | ok p => simp [hab, hr]; rfl
      · rw [if_neg hab]
        simp [hab]
        rfl

theorem Silent.attr_code (hJ : J.Silent) (n : Nat) (e : Ent) (a : String) :
    J.handle A n (.attr e a) = CProg.lift (J.answer A n (.attr e a)) := by
  cases n with
  | zero => rfl
  | succ n =>
    rw [J.answer_succ A]
    change J.hasAttributeErased (J.handle A n) e a = CProg.lift (anyCalls (J.answer A n) (J.attrCalls e a))
    rw [J.hasAttributeErased_eq, anyCode_silent (hJ.attr e a) _ (J.answer A n)]

/-- more depth changes nothing -/
theorem Silent.answer_depth (hJ : J.Silent) (n m : Nat) (e : Ent) (q : QualifierQuery Q) (s : StatInst E) :
    J.answer A (n + 1) (.stat e q s) = J.answer A (m + 1) (.stat e q s) := by
  have hc : ∀ o o' : Oracle E Q Ent, ∀ p, runCalls o (J.statCalls e q) p = runCalls o' (J.statCalls e q) p := by
    intro o o' p
    have := (callsCode_silent (hJ.stat e q) (fun _ => .fail .fuel) o p).symm.trans
      (callsCode_silent (hJ.stat e q) (fun _ => .fail .fuel) o' p)
    revert this
    generalize runCalls o (J.statCalls e q) p = x
    generalize runCalls o' (J.statCalls e q) p = y
    cases x <;> cases y <;> simp [CProg.lift]
  rw [J.answer_succ A, J.answer_succ A]
  simp only [ideal, hc (J.answer A n) (J.answer A m)]

variable [DecidableEq Q] [DecidableEq Ent]

/-- a query that does not find its result in the cache -/
theorem Silent.run_miss (hJ : J.Silent) (hS : J.Safe A) (n : Nat) (e : Ent) (q : QualifierQuery Q) (s : StatInst E)
    (he : J.world.isStat e = true) (hcd : J.world.cached = true) (c : Cache E Q Ent)
    (hg : HMap.get (CacheKey.eq A) c ⟨e, q, s⟩ = none) :
    (∃ v : s.Val, Storable (E.layout s.ty) ∧ J.answer A (n + 1) (.stat e q s) = .ok (some v) ∧
      (J.handle A (n + 1) (.stat e q s)).run A c =
        (.ok (some v), (HMap.insert (CacheKey.eq A) c ⟨e, q, s⟩ (.val s.ty v)).1)) ∨
    ∃ x, J.answer A (n + 1) (.stat e q s) = .error x ∧
      (J.handle A (n + 1) (.stat e q s)).run A c = (.error x, c) := by
  suffices key : ∀ x : CProg E Q Ent (Option s.Val), x =
      ((CProg.lift (validate (E.layout s.ty))).bind fun _ =>
        (J.queryStatErased A (J.handle A n) e q s).bind fun o => CProg.lift (StatMap.readAs s o)) →
      (∃ v : s.Val, Storable (E.layout s.ty) ∧ J.answer A (n + 1) (.stat e q s) = .ok (some v) ∧
        x.run A c = (.ok (some v), (HMap.insert (CacheKey.eq A) c ⟨e, q, s⟩ (.val s.ty v)).1)) ∨
      ∃ y, J.answer A (n + 1) (.stat e q s) = .error y ∧ x.run A c = (.error y, c) from
    key (J.handle A (n + 1) (.stat e q s)) rfl
  rintro x rfl
  rw [J.answer_succ A]
  simp only [ideal]
  by_cases hs : Storable (E.layout s.ty)
  swap
  · exact .inr ⟨.panic, by simp [validate_eq, hs], by simp only [validate_eq, hs, if_false]; rfl⟩
  obtain ⟨v0, hv0⟩ := hS.startValue s hs
  simp only [validate_eq, hs, if_true, CProg.lift_ok, CProg.bind_ret, queryStatErased, he, lookup, CProg.bind_eq, hcd,
    CProg.bind_get, CProg.run_get, hg, miss, CProg.bind_assoc, Defaults.cloned, J.compute_eq, hv0, Res.bind_ok]
  rw [callsCode_silent (hJ.stat e q) _ (J.answer A n)]
  have hp := (callsCode_safe (X := fun _ => True) (okGet := fun _ _ => True) (okPut := fun _ _ => True)
    (h := J.handle A n) (hS.statCalls e q) (p := ⟨s, .val s.ty v0⟩) ⟨v0, rfl⟩
    (fun r => (CProg.Good.any _).mono (fun r _ => by cases r <;> trivial)) (fun _ _ => trivial)
    (fun _ _ _ => .inl fun _ _ _ => trivial)).outcome A (fun _ => trivial) c
  rw [callsCode_silent (hJ.stat e q) _ (J.answer A n), CProg.run_lift] at hp
  cases hr : runCalls (J.answer A n) (J.statCalls e q) ⟨s, .val s.ty v0⟩ with
  | error x => exact .inr ⟨x, rfl, rfl⟩
  | ok p =>
    rw [hr] at hp
    obtain ⟨s', b⟩ := p
    obtain ⟨hss, v, hv⟩ := hp
    change s' = s at hss
    subst hss
    change s'.Val at v
    change b = .val s'.ty v at hv
    subst hv
    refine .inl ⟨v, trivial, ?_, ?_⟩
    · simp [Buf.read_val hs]
    · simp only [CProg.lift_ok, CProg.bind_ret, Joined.remember_eq hs, hcd, if_true, CProg.bind_put, CProg.run_put,
        readAs_val hs]
      rfl

end Joined

variable [DecidableEq Q] [DecidableEq Ent] {A : Addr E}

/-- the cache holds what the snapshots say -/
def Snapshots.Held (A : Addr E) (w : Snapshots E Q Ent) (c : Cache E Q Ent) : Prop :=
  ∀ k, match w k with
    | none => HMap.get (CacheKey.eq A) c k = none
    | some J => ∃ v : k.stat.Val, HMap.get (CacheKey.eq A) c k = some (.val k.stat.ty v) ∧ Storable (E.layout k.stat.ty) ∧
        ∀ n, J.answer A (n + 1) (.stat k.entity k.query k.stat) = .ok (some v)

theorem Snapshots.Held.run {w : Snapshots E Q Ent} {c : Cache E Q Ent} (h : w.Held A c) {J : Joined E Q Ent}
    (hS : J.Safe A) (hJ : J.Silent) (n : Nat) (r : Req E Q Ent) :
    ((J.handle A n r).run A c).1 = (w.seen J r).answer A n r ∧
      (w.after A J n r).Held A ((J.handle A n r).run A c).2 := by
  cases r with
  | relation a b q s => rw [hJ.relation_code, CProg.run_lift]; exact ⟨rfl, h⟩
  | attr e a => rw [hJ.attr_code, CProg.run_lift]; exact ⟨rfl, h⟩
  | stat e q s =>
    by_cases hec : J.world.isStat e = true ∧ J.world.cached = true
    swap
    · have hafter : w.after A J n (.stat e q s) = w := by
        funext k
        simp only [Snapshots.after]
        rw [if_neg fun hh => hec ⟨hh.2.2.1, hh.2.2.2.1⟩]
      have hrun : (J.handle A n (.stat e q s)).run A c = (J.answer A n (.stat e q s), c) := by
        by_cases hcd : J.world.cached = true
        · have he : J.world.isStat e = false := by
            cases hh : J.world.isStat e with
            | false => rfl
            | true => exact absurd ⟨hh, hcd⟩ hec
          cases n with
          | zero => rfl
          | succ n =>
            rw [J.answer_succ A]
            suffices key : ∀ x : CProg E Q Ent (Option s.Val), x =
                ((CProg.lift (validate (E.layout s.ty))).bind fun _ =>
                  (J.queryStatErased A (J.handle A n) e q s).bind fun o => CProg.lift (StatMap.readAs s o)) →
                x.run A c = (J.ideal A (J.answer A n) (.stat e q s), c) from
              key (J.handle A (n + 1) (.stat e q s)) rfl
            rintro x rfl
            by_cases hs : Storable (E.layout s.ty)
            · simp [validate_eq, hs, Joined.queryStatErased, he, Joined.ideal, CProg.lift_ok]
              rfl
            · simp only [validate_eq, hs, if_false, Joined.ideal]
              rfl
        · exact C51_no_cache J (by simpa using hcd) hJ.quiet c n _
      rw [hafter, hrun]
      refine ⟨?_, h⟩
      simp only [Snapshots.seen]
      rw [if_neg hec]
    · simp only [Snapshots.seen]
      rw [if_pos hec]
      cases n with
      | zero =>
        have hafter : w.after A J 0 (.stat e q s) = w := by
          funext k
          simp only [Snapshots.after]
          rw [if_neg]
          rintro ⟨-, -, -, -, x, hx⟩
          cases hx
        rw [hafter]
        exact ⟨rfl, h⟩
      | succ n =>
        have hk := h ⟨e, q, s⟩
        cases hw : w ⟨e, q, s⟩ with
        | some J' =>
          rw [hw] at hk
          obtain ⟨v, hg, hs, hv⟩ := hk
          have hafter : w.after A J (n + 1) (.stat e q s) = w := by
            funext k
            simp only [Snapshots.after]
            rw [if_neg]
            rintro ⟨rfl, hn, -⟩
            rw [hw] at hn
            cases hn
          rw [hafter, C52_cached A J n c e q s v hs hec.1 hec.2 hg]
          exact ⟨(hv n).symm, h⟩
        | none =>
          rw [hw] at hk
          rcases hJ.run_miss hS n e q s hec.1 hec.2 c hk with ⟨v, hs, ha, hr⟩ | ⟨x, ha, hr⟩
          · rw [hr]
            refine ⟨ha.symm, fun k => ?_⟩
            simp only [Snapshots.after]
            by_cases hkk : k = ⟨e, q, s⟩
            · subst hkk
              rw [if_pos ⟨rfl, hw, hec.1, hec.2, _, ha⟩]
              exact ⟨v, by rw [HMap.get_insert (CacheKey.eq_iff A), if_pos rfl], hs, fun m =>
                (hJ.answer_depth m n e q s).trans ha⟩
            · rw [if_neg fun hh => hkk hh.1, HMap.get_insert (CacheKey.eq_iff A), if_neg fun hh => hkk hh.symm]
              exact h k
          · rw [hr]
            refine ⟨ha.symm, ?_⟩
            have hafter : w.after A J (n + 1) (.stat e q s) = w := by
              funext k
              simp only [Snapshots.after]
              rw [if_neg]
              rintro ⟨-, -, -, -, y, hy⟩
              rw [ha] at hy
              cases hy
            rw [hafter]
            exact h

theorem history_snapshots (evs : List (Event E Q Ent)) {J : Joined E Q Ent} {c : Cache E Q Ent} {w : Snapshots E Q Ent}
    (hc : CacheTyped c) (h : w.Held A c) (hJ : J.Safe A ∧ J.Silent)
    (he : ∀ J', Event.change J' ∈ evs → J'.Safe A ∧ J'.Silent) :
    (history A J c evs).1 = snapshotHistory A J w evs := by
  induction evs generalizing J c w with
  | nil => rfl
  | cons ev evs ih =>
    have he' : ∀ J', Event.change J' ∈ evs → J'.Safe A ∧ J'.Silent := fun J' h' => he J' (List.mem_cons_of_mem _ h')
    cases ev with
    | query n r =>
      obtain ⟨h1, h2⟩ := h.run hJ.1 hJ.2 n r
      simp only [history, snapshotHistory]
      rw [h1, ih (J.run_cacheTyped hc n r) h2 hJ he']
    | clear =>
      simp only [history, snapshotHistory, hc.clear]
      exact ih (fun x hx => by cases hx) (fun k => rfl) hJ he'
    | change J' => exact ih hc h (he J' List.mem_cons_self) he'

/-- **C135** Streams that use neither the querier nor the cache: in every history of requests, clears and changes of the
world and the streams, a request returns what it returns without a cache in the world of the first successful request
for the same entity, query and stat since the last clear (as long as the entity is a `StatEntity` and there is a cache,
and in the current world otherwise). -/
theorem C135_snapshots (J : Joined E Q Ent) (evs : List (Event E Q Ent)) (hJ : J.Safe A ∧ J.Silent)
    (he : ∀ J', Event.change J' ∈ evs → J'.Safe A ∧ J'.Silent) :
    (history A J [] evs).1 = snapshotHistory A J (fun _ => none) evs :=
  history_snapshots evs (fun x hx => by cases hx) (fun _ => rfl) hJ he


omit [DecidableEq Q] [DecidableEq Ent] in
theorem Snapshots.after_from {w : Snapshots E Q Ent} {J : Joined E Q Ent} {P : Joined E Q Ent → Prop}
    (hw : ∀ k J', w k = some J' → P J') (hJ : P J) (n : Nat) (r : Req E Q Ent) :
    ∀ k J', w.after A J n r k = some J' → P J' := by
  cases r with
  | relation a b q s => exact hw
  | attr e a => exact hw
  | stat e q s =>
    intro k J' h
    simp only [Snapshots.after] at h
    split at h
    · cases h; exact hJ
    · exact hw k J' h

omit [DecidableEq Q] [DecidableEq Ent] in
theorem snapshotHistory_fresh (evs : List (Event E Q Ent)) {J : Joined E Q Ent} {w : Snapshots E Q Ent} (r : Req E Q Ent)
    {P : Joined E Q Ent → Prop} (hP : ∀ J J', P J → P J' → ∀ n, J'.answer A n r = J.answer A n r)
    (hw : ∀ k J', w k = some J' → P J') (hJ : P J) (he : ∀ J', Event.change J' ∈ evs → P J') :
    ∀ o ∈ snapshotHistory A J w evs, o.req = r → o.res = o.querier.answer A o.depth o.req := by
  induction evs generalizing J w with
  | nil => intro o ho; cases ho
  | cons ev evs ih =>
    have he' : ∀ J', Event.change J' ∈ evs → P J' := fun J' h' => he J' (List.mem_cons_of_mem _ h')
    cases ev with
    | query n r' =>
      intro o ho hr
      simp only [snapshotHistory, List.mem_cons] at ho
      rcases ho with rfl | ho
      · change r' = r at hr
        subst hr
        refine hP J _ hJ ?_ n
        cases r' with
        | relation a b q s => exact hJ
        | attr e a => exact hJ
        | stat e q s =>
          simp only [Snapshots.seen]
          split
          · cases hk : w ⟨e, q, s⟩ with
            | none => exact hJ
            | some J' => exact hw _ _ hk
          · exact hJ
      · exact ih (Snapshots.after_from hw hJ n r') hJ he' o ho hr
    | clear => exact ih (fun k J' h => by cases h) hJ he'
    | change J' => exact ih hw (he J' List.mem_cons_self) he'

/-- **C135** No clear is needed for the sake of a request that the changes are not about: if all worlds of the history
answer it in the same way without a cache, it returns that answer, whatever else changed and was not cleared. -/
theorem C135_fresh (J : Joined E Q Ent) (evs : List (Event E Q Ent)) (hJ : J.Safe A ∧ J.Silent)
    (he : ∀ J', Event.change J' ∈ evs → J'.Safe A ∧ J'.Silent) (r : Req E Q Ent)
    (hr : ∀ J', Event.change J' ∈ evs → ∀ n, J'.answer A n r = J.answer A n r) :
    ∀ o ∈ (history A J [] evs).1, o.req = r → o.res = o.querier.answer A o.depth o.req := by
  rw [C135_snapshots J evs hJ he]
  exact snapshotHistory_fresh evs r (P := fun J' => ∀ n, J'.answer A n r = J.answer A n r)
    (fun J₁ J₂ h1 h2 n => (h2 n).trans (h1 n).symm) (fun k J' h => by cases h) (fun _ => rfl) hr

/-- **C135** And exactly then: a stat that was queried before a change is queried correctly after it, without a clear,
if and only if the first query failed or the stat is the same after the change. -/
theorem C135_clear_iff (J J' : Joined E Q Ent) (hJ : J.Safe A ∧ J.Silent) (hJ' : J'.Safe A ∧ J'.Silent) (e : Ent)
    (q : QualifierQuery Q) (s : StatInst E) (h1 : J.world.isStat e = true ∧ J.world.cached = true)
    (h2 : J'.world.isStat e = true ∧ J'.world.cached = true) (n : Nat) :
    (∀ o ∈ (history A J [] [.query (n + 1) (.stat e q s), .change J', .query (n + 1) (.stat e q s)]).1,
      o.res = o.querier.answer A o.depth o.req) ↔
    (∃ x, J.answer A (n + 1) (.stat e q s) = .error x) ∨
      J.answer A (n + 1) (.stat e q s) = J'.answer A (n + 1) (.stat e q s) := by
  rw [C135_snapshots J _ hJ (by
    intro K hK
    simp only [List.mem_cons, reduceCtorEq, Event.change.injEq, List.not_mem_nil, or_false, false_or] at hK
    rw [hK]; exact hJ')]
  simp only [snapshotHistory, List.forall_mem_cons, List.not_mem_nil, false_imp_iff, implies_true, and_true,
    Snapshots.seen, if_pos h2, Snapshots.after, Option.getD_none, true_and, h1]
  cases ha : J.answer A (n + 1) (.stat e q s) with
  | error x => simp [h1, ha]
  | ok x => simp [h1, ha]

end BSQ

namespace BSQ
variable {E : Env} {Q Ent : Type} [BitFlags Q] [FlagSet Q] [Ord Q] [Std.TransOrd Q] [Std.LawfulEqOrd Q]
variable {A : Addr E} {J : Joined E Q Ent} {own items : List (MapComp (Q := Q) A Ent)}

omit [FlagSet Q] [Std.TransOrd Q] [Std.LawfulEqOrd Q] in
theorem OnlyMaps.silent (h : OnlyMaps J own items) : J.Silent := by
  refine .of_streams (fun g hg => ?_) (fun st hst e it _ this q p => ?_) (fun st hst => ?_)
    (fun st hst e it _ this a => ?_)
  · rw [h.globals] at hg; cases hg
  · rw [h.comp, h.rel, h.child, List.append_nil, ← List.map_append] at hst
    obtain ⟨c, -, rfl⟩ := List.mem_map.1 hst
    exact .lift _
  · rw [h.rel] at hst; cases hst
  · rw [h.comp, h.rel, h.child, List.append_nil, ← List.map_append] at hst
    obtain ⟨c, -, rfl⟩ := List.mem_map.1 hst
    trivial

/-- **C135** When all sources are maps: whatever is changed in the maps of all entities, and not cleared, a query still
returns the answer of the current world, as long as the values for its stat under matching qualifiers stay, in the maps
of its entity and of the children, and the start value. -/
theorem C135_maps [DecidableEq Ent]
    (hj : ∀ (T : E.S) (v w : E.El (E.valTy T)), (E.sv (E.valTy T)).join v w ≠ .error .ub)
    (evs : List (Event E Q Ent)) (h : OnlyMaps J own items)
    (hd : ∀ d ∈ J.world.defaults, ∀ s b, HMap.get (StatInst.eq A) d s = some b →
      ∃ v : s.Val, b = .val s.ty v ∧ Storable (E.layout s.ty))
    (e : Ent) (q : QualifierQuery Q) (s : StatInst E) (hs : Storable (E.layout s.ty)) (he : J.world.isStat e = true)
    (hc : ∀ J', Event.change J' ∈ evs → J'.world.defaults = J.world.defaults ∧ J'.world.isStat e = true ∧
      ∃ own' items' : List (MapComp (Q := Q) A Ent), OnlyMaps J' own' items' ∧
        List.Forall₂ (SameAt q s) (mapPlaces J own items e) (mapPlaces J' own' items' e)) :
    ∀ o ∈ (history A J [] evs).1, o.req = .stat e q s → o.res = o.querier.answer A o.depth o.req := by
  have hS := h.safe hj hd
  obtain ⟨v, hv⟩ := hS.startValue s hs
  refine C135_fresh J evs ⟨hS, h.silent⟩ (fun J' hJ' => ?_) _ fun J' hJ' n => ?_
  · obtain ⟨h1, -, own', items', h2, -⟩ := hc J' hJ'
    exact ⟨h2.safe hj (by rw [h1]; exact hd), h2.silent⟩
  · obtain ⟨h1, h3, own', items', h2, h4⟩ := hc J' hJ'
    cases n with
    | zero => rfl
    | succ n =>
      refine (C89_depends h h2 e e q s hs he h3 v hv ?_ h4 n n).symm
      unfold World.startValue World.registered at hv ⊢
      rw [h1]; exact hv

/-- C135: the child 2 of `demoMaps` gets `+10, *3` under flag 4, and the cache is not cleared.  The query with flag 4
made before returns the old value until the cache is cleared; the one without the flag is right all the time. -/
example : (history demoAddr demoMaps [] [.query 1 (.stat 0 demoQ4 (demoInt 0)), .query 1 (.stat 0 demoQ (demoInt 0)),
      .change demoMaps', .query 1 (.stat 0 demoQ4 (demoInt 0)), .query 1 (.stat 0 demoQ (demoInt 0)), .clear,
      .query 1 (.stat 0 demoQ4 (demoInt 0))]).1 =
    [⟨demoMaps, 1, .stat 0 demoQ4 (demoInt 0), .ok (some (⟨7, -100, 13, 2⟩ : StatInt))⟩,
      ⟨demoMaps, 1, .stat 0 demoQ (demoInt 0), .ok (some (⟨7, -100, 13, 2⟩ : StatInt))⟩,
      ⟨demoMaps', 1, .stat 0 demoQ4 (demoInt 0), .ok (some (⟨7, -100, 13, 2⟩ : StatInt))⟩,
      ⟨demoMaps', 1, .stat 0 demoQ (demoInt 0), .ok (some (⟨7, -100, 13, 2⟩ : StatInt))⟩,
      ⟨demoMaps', 1, .stat 0 demoQ4 (demoInt 0), .ok (some (⟨17, -100, 13, 6⟩ : StatInt))⟩] := rfl

/-- C135: that the query without the flag stays right is `C135_maps` -/
example (evs : List (Event demo (BitVec 8) Nat)) (hev : ∀ J, Event.change J ∈ evs → J = demoMaps ∨ J = demoMaps') :
    ∀ o ∈ (history demoAddr demoMaps [] evs).1, o.req = .stat 0 demoQ (demoInt 0) →
      o.res = o.querier.answer demoAddr o.depth o.req := by
  refine C135_maps (fun T v w h => by cases demo_join_panics T v w _ h) evs demoMaps_only (fun d hd => by cases hd) 0 demoQ
    (demoInt 0) (by decide) rfl fun J hJ => ?_
  rcases hev J hJ with rfl | rfl
  · exact ⟨rfl, rfl, _, _, demoMaps_only, List.forall₂_same.2 fun _ _ _ _ => rfl⟩
  · refine ⟨rfl, rfl, [demoOwn], [demoItem'], ⟨rfl, rfl, rfl, rfl⟩, ?_⟩
    have ho : ∀ k, FlagSpec.Matches k demoQ →
        ¬ (MapOp.insert ⟨0, 4⟩ (demoInt 0) demoGiven : MapOp demo (BitVec 8)).Touches ⟨demoInt 0, k⟩ := fun k hk hk' => by
      cases congrArg Key.qual hk'
      rw [← matches_iff] at hk
      revert hk
      decide
    exact List.rel_append (sameAt_own (o := .insert ⟨0, 4⟩ (demoInt 0) demoGiven) (e₀ := 2) (cs := [demoOwn])
      (cs' := [demoOwn]) (.cons (.inl rfl) .nil) demoQ (demoInt 0) 0 (.inr ho))
      (sameAt_children (o := .insert ⟨0, 4⟩ (demoInt 0) demoGiven) (e₀ := 2) (cs := [demoItem]) (cs' := [demoItem'])
        (.cons (.inr demoItem_edited) .nil) demoQ (demoInt 0) [2, 3] (.inr ho))

theorem demoMaps_plain : demoMaps.Safe demoAddr ∧ demoMaps.Silent :=
  ⟨demoMaps_only.safe (fun T v w h => by cases demo_join_panics T v w _ h) (fun d hd => by cases hd), demoMaps_only.silent⟩

theorem demoMaps'_plain : demoMaps'.Safe demoAddr ∧ demoMaps'.Silent :=
  have h : OnlyMaps demoMaps' [demoOwn] [demoItem'] := ⟨rfl, rfl, rfl, rfl⟩
  ⟨h.safe (fun T v w h => by cases demo_join_panics T v w _ h) (fun d hd => by cases hd), h.silent⟩

/-- C135: the query with the flag needs a clear -/
example : ¬ ∀ o ∈ (history demoAddr demoMaps [] [.query 1 (.stat 0 demoQ4 (demoInt 0)), .change demoMaps',
    .query 1 (.stat 0 demoQ4 (demoInt 0))]).1, o.res = o.querier.answer demoAddr o.depth o.req := by
  rw [C135_clear_iff demoMaps demoMaps' demoMaps_plain demoMaps'_plain 0 demoQ4 (demoInt 0) ⟨rfl, rfl⟩ ⟨rfl, rfl⟩ 0]
  have h1 : (demoMaps.answer demoAddr 1 (.stat 0 demoQ4 (demoInt 0)) : Res (Option StatInt)) =
    .ok (some ⟨7, -100, 13, 2⟩) := rfl
  have h2 : (demoMaps'.answer demoAddr 1 (.stat 0 demoQ4 (demoInt 0)) : Res (Option StatInt)) =
    .ok (some ⟨17, -100, 13, 6⟩) := rfl
  rintro (⟨x, hx⟩ | h)
  · cases h1.symm.trans hx
  · cases h1.symm.trans (h.trans h2)

end BSQ
