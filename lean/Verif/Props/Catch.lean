import Verif.Props.CacheExact
import Verif.Props.Recursion
import Verif.Props.JoinReturns
/-!
# Streams that catch panics  (C101)
-/
namespace BSQ
variable {E : Env} {Q Ent α : Type} {A : Addr E} {J : Joined E Q Ent}

section
variable [DecidableEq Q] [DecidableEq Ent]

/-- C101: code that makes a query and catches its panic goes on with the result of the query, or with `none` if it
panicked, on the cache the query left; undefined behaviour and a stack overflow end the code as well.  The cache may
be any that queries and clears can leave, whatever streams do. -/
theorem C101_catch (evs : List (Event E Q Ent)) (J' : Joined E Q Ent) (n : Nat) (r : Req E Q Ent)
    (k : Option r.Resp → Prog E Q Ent α) (o : Res r.Resp) (c' : Cache E Q Ent)
    (h : (J.handle A n r).run A (history A J' [] evs).2 = (o, c')) :
    ((Prog.attempt r k).interp (J.handle A n)).run A (history A J' [] evs).2 =
      match (generalizing := false) o with
      | .ok x => ((k (some x)).interp (J.handle A n)).run A c'
      | .error .panic => ((k none).interp (J.handle A n)).run A c'
      | .error e => (.error e, c') := by
  change ((J.handle A n r).attempt.bind fun x => (k x).interp (J.handle A n)).run A _ = _
  rw [CProg.run_bind, CProg.run_attempt (history_cacheTyped evs J' fun x hx => by cases hx) (J.putsTyped A n r), h]
  rcases o with (_ | _ | _) | x <;> rfl

/-- C101: so under the conditions of C48 the code goes on with `none` exactly if the query panics without a cache, and
with the right result if there is one; and whatever is cached is right afterwards, also if the panic was caught -/
theorem C101_faithful (hJ : J.Right A) (evs : List (Event E Q Ent)) (hq : ∀ ev ∈ evs, ev.isQuery = true ∨ ev = .clear)
    (n : Nat) (r : Req E Q Ent) (k : Option r.Resp → Prog E Q Ent α) :
    let c := (history A J [] evs).2
    let c' := ((J.handle A n r).run A c).2
    (J.answer A n r = .error .panic →
      ((Prog.attempt r k).interp (J.handle A n)).run A c = ((k none).interp (J.handle A n)).run A c') ∧
    (∀ x, J.answer A n r = .ok x →
      ((Prog.attempt r k).interp (J.handle A n)).run A c = ((k (some x)).interp (J.handle A n)).run A c') ∧
    ∀ m r', Faithful A J m r' ((J.handle A m r').run A c').1 := by
  intro c c'
  have hc : CacheValid A J c := history_valid hJ evs hq fun x hx => by cases hx
  obtain ⟨hf, hv⟩ := hJ.run_valid hc n r
  refine ⟨fun h => ?_, fun x h => ?_, fun m r' => (hJ.run_valid hv m r').1⟩
  · have h1 := hf.1 (by rw [h]; simp)
    rw [h] at h1
    exact C101_catch evs J n r k (.error .panic) c' (Prod.ext h1 rfl)
  · have h1 := hf.1 (by rw [h]; simp)
    rw [h] at h1
    exact C101_catch evs J n r k (.ok x) c' (Prod.ext h1 rfl)

/-- C101: catching panics does not end a recursion: if some source of a stat, whatever ran before it, asks for that very
stat with the same query on the same entity, the query never returns a value at any recursion depth, with or without a
cache, even if the source would go on after a panic -/
theorem C101_self_query (hJ : J.Safe A) (hn : J.NoStore) (e : Ent) (q : QualifierQuery Q) (s : StatInst E)
    (he : J.world.isStat e = true) (c : Call E Q Ent) (hc : c ∈ J.statCalls e q)
    (hask : ∀ p, p.stat = s → ∃ k, c p = .attempt (.stat e q s) k) (n : Nat) (evs : List (Event E Q Ent))
    (hq : ∀ ev ∈ evs, ev.isQuery = true ∨ ev = .clear) (v : Option s.Val) :
    ((J.handle A n (.stat e q s)).run A (history A J [] evs).2).1 ≠ .ok v ∧ J.answer A n (.stat e q s) ≠ .ok v := by
  have main : ∀ n v, J.answer A n (.stat e q s) ≠ .ok v := by
    intro n
    induction n with
    | zero => exact fun v h => by cases h
    | succ n ih =>
      intro v h
      have h0 := h
      by_cases hs : Storable (E.layout s.ty)
      · rw [Joined.answer_body hs he, Joined.body] at h
        obtain ⟨v0, hv0⟩ := hJ.startValue s hs
        obtain ⟨l1, l2, hl⟩ := List.append_of_mem hc
        rw [hv0, Res.bind_ok, hl, runCalls_append] at h
        obtain ⟨p', h, -⟩ := Res.bind_eq_ok.1 h
        obtain ⟨p, h1, h⟩ := Res.bind_eq_ok.1 h
        have hsafe := hJ.statCalls e q
        rw [hl] at hsafe
        obtain ⟨hp, -⟩ := runCalls_safe (fun c h => hsafe c (List.mem_append_left _ h))
          (p := ⟨s, .val s.ty v0⟩) ⟨v0, rfl⟩ h1
        obtain ⟨k, hk⟩ := hask p hp
        rw [runCalls, hk, Prog.eval] at h
        obtain ⟨_, h, -⟩ := Res.bind_eq_ok.1 h
        obtain ⟨x, hx, -⟩ := Res.bind_eq_ok.1 h
        have hle := J.answer_le A (Nat.le_succ n) (.stat e q s)
        cases ha : J.answer A n (.stat e q s) with
        | ok w => exact ih w ha
        | error y =>
          rw [ha] at hx
          cases y with
          | panic =>
            rw [ha] at hle
            rw [hle (by simp)] at h0
            cases h0
          | ub => cases hx
          | fuel => cases hx
      · rw [J.answer_succ] at h
        simp only [Joined.ideal, validate_eq, hs, if_false] at h
        cases h
  refine ⟨fun h => ?_, main n v⟩
  have := ((hJ.honest hn).right.run_valid (history_valid (hJ.honest hn).right evs hq (c := []) fun x hx => by cases hx) n
    (.stat e q s)).1.2 (by rw [h]; simp)
  obtain ⟨m, hm⟩ := this
  exact main m v (by rw [← h]; exact hm)

end

/-! ### concrete cases -/

/-- adds `k` to integer stat `i` -/
def demoOnly (i : Nat) (k : Int) : CStream demo (BitVec 8) Nat where
  Item := Nat
  query e := some e
  stream _ _ _ p := if p.stat = demoInt i then demoAdd k p else .ret p

/-- adds one to integer stat 1 if the query for integer stat 0 panics -/
def demoCatch : CStream demo (BitVec 8) Nat where
  Item := Nat
  query e := some e
  stream e _ q p :=
    if p.stat = demoInt 1 then
      .attempt (.stat e q (demoInt 0)) fun o => match o with
        | none => demoAdd 1 p
        | some _ => .ret p
    else .ret p

/-- the sum of integer stat 0 overflows on the way -/
def demoCatching : Joined demo (BitVec 8) Nat :=
  (((World.withComponent { demoWorld with relations := none } (demoOnly 0 2147483647)).withComponent
    (demoOnly 0 1)).withComponent (demoOnly 0 (-1))).withComponent demoCatch

/-- the same sources in another order: no overflow -/
def demoCatching' : Joined demo (BitVec 8) Nat :=
  (((World.withComponent { demoWorld with relations := none } (demoOnly 0 2147483647)).withComponent
    (demoOnly 0 (-1))).withComponent (demoOnly 0 1)).withComponent demoCatch

example : demoCatching.answer demoAddr 1 (.stat 0 demoQ (demoInt 0)) = .error .panic := rfl

theorem demoCatching_calls (e : Nat) (q : QualifierQuery (BitVec 8)) : ∀ c ∈ demoCatching.statCalls e q,
    (∃ k, IntTy.i32.InRange k ∧ c = (demoOnly 0 k).stream e e q) ∨ c = demoCatch.stream e e q := by
  intro c hc
  change c ∈ [(demoOnly 0 2147483647).stream e e q, (demoOnly 0 1).stream e e q, (demoOnly 0 (-1)).stream e e q,
    demoCatch.stream e e q] at hc
  simp only [List.mem_cons, List.not_mem_nil, or_false] at hc
  rcases hc with rfl | rfl | rfl | rfl
  · exact .inl ⟨_, by decide, rfl⟩
  · exact .inl ⟨_, by decide, rfl⟩
  · exact .inl ⟨_, by decide, rfl⟩
  · exact .inr rfl

theorem nothing_contributes {s : StatInst E} {okOp : StatOp s.sv → Prop} {c : Call E Q Ent}
    (h : ∀ v : s.Val, c ⟨s, .val s.ty v⟩ = .ret ⟨s, .val s.ty v⟩) : Call.Contributes s okOp c (.ret []) := by
  intro o v L p' hv hp
  rw [h v] at hp
  cases hp
  exact ⟨[], v, rfl, rfl, by rwa [List.append_nil]⟩

/-- C101: C44 needs that streams let panics pass.  Here the operations of the sources commute, each source contributes
operations and only asks about stats it may ask about, and both orders of the sources return; but with one order a
nested query overflows on the way, which a stream catches, so the results differ. -/
theorem C101_order : ∃ (J J' : Joined demo (BitVec 8) Nat) (good : StatInst demo → Prop)
    (okOp : (s : StatInst demo) → StatOp s.sv → Prop),
    SameSources J J' ∧ (∀ s, good s → Unordered s.sv (okOp s)) ∧
    (∀ s b, good s → J.world.startValue demoAddr s = .ok b →
      ∃ v L, b = .val s.ty v ∧ Assembles s.sv (okOp s) v L) ∧
    (∀ e q s, good s → ∀ c ∈ J.statCalls e q, ∃ C : Prog demo (BitVec 8) Nat (List (StatOp s.sv)),
      c.Contributes s (okOp s) C ∧ C.Asks (Req.About good)) ∧
    ∃ e q s, good s ∧ ∃ v v', J.answer demoAddr 2 (.stat e q s) = .ok (some v) ∧
      J'.answer demoAddr 2 (.stat e q s) = .ok (some v') ∧ v ≠ v' := by
  refine ⟨demoCatching, demoCatching', fun s => s.vt = true, demoOk, ?_, ?_, ?_, ?_, 0, demoQ, demoInt 1, rfl,
    (⟨1, -2147483648, 2147483647, 1⟩ : StatInt), (⟨0, -2147483648, 2147483647, 1⟩ : StatInt), rfl, rfl, ?_⟩
  · exact ⟨rfl, rfl, rfl, .refl _, fun _ => .refl _, .cons _ (.swap _ _ _), .refl _, .refl _⟩
  · rintro ⟨vt, i⟩ hg
    cases hg
    exact C16_unordered ⟨.i32, .prim, .debug⟩ rfl (by decide)
  · rintro ⟨vt, i⟩ b hg hb
    cases hg
    rw [(C44_start _ (demoInt i) (show Storable ⟨16, 8⟩ by decide)).1 rfl] at hb
    cases hb
    exact ⟨_, [], rfl, .dflt, trivial, fun x hx => (by cases hx), .refl _, rfl⟩
  · rintro e q ⟨vt, i⟩ hg c hc
    cases hg
    rcases demoCatching_calls e q c hc with ⟨k, hk, rfl⟩ | rfl
    · by_cases hi : i = 0
      · subst hi
        exact ⟨_, demoAdd_contributes k hk 0, trivial⟩
      · exact ⟨_, nothing_contributes fun v => if_neg fun h => hi (by injection h), trivial⟩
    · by_cases hi : i = 1
      · subst hi
        refine ⟨.attempt (.stat e q (demoInt 0)) fun o => match o with
          | none => .ret [.add (1 : Int)]
          | some _ => .ret [], ?_, rfl, fun x => by cases x <;> trivial⟩
        intro o v L p' hv hp
        change (Prog.attempt (.stat e q (demoInt 0)) _).eval o = .ok p' at hp
        obtain ⟨x, hx, hp⟩ := Res.bind_eq_ok.1 hp
        cases x with
        | none =>
          obtain ⟨ops, v', h1, h2⟩ := demoAdd_contributes 1 (by decide) 1 o v L p' hv hp
          cases h1
          exact ⟨_, v', by rw [Prog.eval, hx]; rfl, h2⟩
        | some y =>
          cases hp
          exact ⟨[], v, by rw [Prog.eval, hx]; rfl, rfl, by rwa [List.append_nil]⟩
      · exact ⟨_, nothing_contributes fun v => if_neg fun h => hi (by injection h), trivial⟩
  · intro h
    injection h with h
    cases h

theorem demoCatching_safe : demoCatching.Safe demoAddr where
  globals g hg e q := by cases hg
  streams st hst e it _ this q := by
    change st ∈ [demoOnly 0 2147483647, demoOnly 0 1, demoOnly 0 (-1), demoCatch] at hst
    have only : ∀ (it : Nat) k, Call.Safe ((demoOnly 0 k).stream this it q) := by
      intro it k p hp
      change Prog.All _ (if p.stat = demoInt 0 then _ else _)
      split
      · exact demoAdd_safe _ p hp
      · exact ⟨rfl, hp⟩
    simp only [List.mem_cons, List.not_mem_nil, or_false] at hst
    rcases hst with rfl | rfl | rfl | rfl
    · exact only it _
    · exact only it _
    · exact only it _
    · intro p hp
      change Prog.All _ (if p.stat = demoInt 1 then _ else _)
      split
      · intro x
        cases x with
        | none => exact demoAdd_safe _ p hp
        | some y => exact ⟨rfl, hp⟩
      · exact ⟨rfl, hp⟩
  relations st hst a b q := by cases hst
  attrs st hst e it _ this a := by
    change st ∈ [demoOnly 0 2147483647, demoOnly 0 1, demoOnly 0 (-1), demoCatch] at hst
    simp only [List.mem_cons, List.not_mem_nil, or_false] at hst
    rcases hst with rfl | rfl | rfl | rfl <;> (intro h; cases h)
  defaults d hd := by cases hd

theorem demoCatching_noStore : demoCatching.NoStore := by
  refine .of_streams (fun g hg => ?_) (fun st hst e it _ this q => ?_) (fun st hst => ?_)
    (fun st hst e it _ this a => ?_)
  · cases hg
  · change st ∈ [demoOnly 0 2147483647, demoOnly 0 1, demoOnly 0 (-1), demoCatch] at hst
    have only : ∀ (it : Nat) k p, ((demoOnly 0 k).stream this it q p).NoStore := by
      intro it k p
      change Prog.NoStore (if p.stat = demoInt 0 then _ else _)
      split
      · exact (demoAdd_quiet _ p).noStore
      · trivial
    simp only [List.mem_cons, List.not_mem_nil, or_false] at hst
    rcases hst with rfl | rfl | rfl | rfl
    · exact only it _
    · exact only it _
    · exact only it _
    · intro p
      change Prog.NoStore (if p.stat = demoInt 1 then _ else _)
      split
      · intro x
        cases x with
        | none => exact (demoAdd_quiet _ p).noStore
        | some y => trivial
      · trivial
  · cases hst
  · change st ∈ [demoOnly 0 2147483647, demoOnly 0 1, demoOnly 0 (-1), demoCatch] at hst
    simp only [List.mem_cons, List.not_mem_nil, or_false] at hst
    rcases hst with rfl | rfl | rfl | rfl <;> trivial

/-- a stream that catches the panic of a nested query, after a query and a clear -/
example (k : Option (Option StatInt) → Prog demo (BitVec 8) Nat Nat) :
    let c := (history demoAddr demoCatching [] [.query 2 (.stat 0 demoQ (demoInt 1)), .clear]).2
    ((Prog.attempt (.stat 0 demoQ (demoInt 0)) k).interp (demoCatching.handle demoAddr 1)).run demoAddr c =
      ((k none).interp (demoCatching.handle demoAddr 1)).run demoAddr
        ((demoCatching.handle demoAddr 1 (.stat 0 demoQ (demoInt 0))).run demoAddr c).2 :=
  (C101_faithful (demoCatching_safe.honest demoCatching_noStore).right [.query 2 (.stat 0 demoQ (demoInt 1)), .clear]
    (by simp [Event.isQuery]) 1 (.stat 0 demoQ (demoInt 0)) k).1 rfl

/-- asks for the stat that is being queried, and goes on if that panics -/
def demoLoopCatch : CStream demo (BitVec 8) Nat where
  Item := Nat
  query e := some e
  stream e _ q p := .attempt (.stat e q p.stat) fun _ => .ret p

def demoLoopCatching : Joined demo (BitVec 8) Nat := ({ demoWorld with relations := none }).withComponent demoLoopCatch

theorem demoLoopCatching_safe : demoLoopCatching.Safe demoAddr where
  globals g hg e q := by cases hg
  streams st hst e it _ this q := by
    cases List.mem_singleton.1 hst
    exact fun p hp x => ⟨rfl, hp⟩
  relations st hst a b q := by cases hst
  attrs st hst e it _ this a := by
    cases List.mem_singleton.1 hst
    intro h; cases h
  defaults d hd := by cases hd

theorem demoLoopCatching_noStore : demoLoopCatching.NoStore := by
  refine .of_streams (fun g hg => ?_) (fun st hst e it _ this q => ?_) (fun st hst => ?_)
    (fun st hst e it _ this a => ?_)
  · cases hg
  · cases List.mem_singleton.1 hst; exact fun _ _ => trivial
  · cases hst
  · cases List.mem_singleton.1 hst; trivial

example (n : Nat) (v : Option StatInt) :
    ((demoLoopCatching.handle demoAddr n (.stat 0 demoQ (demoInt 0))).run demoAddr
      (history demoAddr demoLoopCatching [] [.query 3 (.stat 1 demoQ (demoInt 0))]).2).1 ≠ .ok v :=
  (C101_self_query demoLoopCatching_safe demoLoopCatching_noStore 0 demoQ (demoInt 0) rfl _ (List.mem_singleton_self _)
    (fun p hp => ⟨fun _ => .ret p, by rw [← hp]; rfl⟩) n [.query 3 (.stat 1 demoQ (demoInt 0))]
    (by simp [Event.isQuery]) v).1

end BSQ
