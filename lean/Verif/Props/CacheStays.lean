import Verif.Props.CacheExact
/-!
# C49: exactly which results stay
-/
namespace BSQ
variable {E : Env} {Q Ent : Type} [DecidableEq Q] [DecidableEq Ent] {A : Addr E} {J : Joined E Q Ent}

/-- a querier over a world in which `e` is a `StatEntity` and a cache exists, whose only stream panics -/
def Joined.alarm (e : Ent) : Joined E Q Ent :=
  ⟨⟨fun _ => true, fun _ => none, none, some [fun _ _ _ => .fail .panic], true, e⟩, .unit, .unit, .unit⟩

/-- C49: the result of a query is `v` whatever the world and the streams are, if and only if the cache holds `v` for
exactly this entity, query and stat. -/
theorem C49_stays_iff (c : Cache E Q Ent) (e : Ent) (q : QualifierQuery Q) (s : StatInst E)
    (hs : Storable (E.layout s.ty)) (v : s.Val) :
    (∀ J' : Joined E Q Ent, J'.world.isStat e = true → J'.world.cached = true → ∀ m,
      ((J'.handle A (m + 1) (.stat e q s)).run A c).1 = .ok (some v)) ↔
    HMap.get (CacheKey.eq A) c ⟨e, q, s⟩ = some (.val s.ty v) := by
  refine ⟨fun h => ?_, fun h J' he hc m => by rw [C52_cached A J' m c e q s v hs he hc h]⟩
  have key := h (.alarm e) rfl rfl 0
  change (((CProg.lift (validate (E.layout s.ty))).bind fun _ =>
    (Joined.queryStatErased A _ _ e q s).bind fun o => CProg.lift (StatMap.readAs s o)).run A c).1 = _ at key
  cases hg : HMap.get (CacheKey.eq A) c ⟨e, q, s⟩ with
  | none =>
    simp only [validate_eq, hs, if_true, CProg.lift_ok, CProg.bind_ret, Joined.queryStatErased, Joined.lookup,
      Joined.alarm, CProg.bind_eq, CProg.bind_get, CProg.run_get, hg, Defaults.cloned, Joined.miss, Joined.compute,
      Joined.globals, runGlobals, Prog.interp, CProg.bind_assoc] at key
    cases hv : World.startValue (Q := Q) (Ent := Ent) A ⟨fun _ => true, fun _ => none, none,
      some [fun _ _ _ => .fail .panic], true, e⟩ s with
    | ok b =>
      rw [hv] at key
      cases key
    | error x =>
      rw [hv] at key
      cases key
  | some b =>
    by_cases hn : ∃ x : s.Val, b = .val s.ty x
    · obtain ⟨x, rfl⟩ := hn
      have h2 := h (.alarm e) rfl rfl 0
      rw [C52_cached A (.alarm e) 0 c e q s x hs rfl rfl hg] at h2
      cases h2
      rfl
    · have hu : Defaults.cloned s (some b) = .error .ub := by
        have hb := (Buf.read_ub hs b).2 fun x hx => hn ⟨x, hx⟩
        simp only [Defaults.cloned, vtClone]
        change (Buf.read s.ty b >>= _) >>= _ = _
        rw [hb]
        rfl
      simp only [validate_eq, hs, if_true, CProg.lift_ok, CProg.bind_ret, Joined.queryStatErased, Joined.lookup,
        Joined.alarm, CProg.bind_eq, CProg.bind_get, CProg.run_get, hg, hu] at key
      cases key

/-- **C49, exactly**, for all streams: a query that does not find its result in the cache calls the sources, which
leave some pair `p` and a cache `c₁` (nested queries, and streams themselves, may have stored something), and returns
`v`.  Then the same query returns `v` whatever becomes of the world and the streams, if and only if `p` still is of
the stat asked for, or the sources have put `v` under the key of the query by other means. -/
theorem C49_iff (c c₁ c' : Cache E Q Ent) (n : Nat) (e : Ent) (q : QualifierQuery Q) (s : StatInst E)
    (hs : Storable (E.layout s.ty)) (he : J.world.isStat e = true) (hc : J.world.cached = true) (v : s.Val) (p : Pair E)
    (hmiss : HMap.get (CacheKey.eq A) c ⟨e, q, s⟩ = none) (hrun : (J.compute A (J.handle A n) e q s).run A c = (.ok p, c₁))
    (hq : (J.handle A (n + 1) (.stat e q s)).run A c = (.ok (some v), c')) :
    (∀ J' : Joined E Q Ent, J'.world.isStat e = true → J'.world.cached = true → ∀ m,
      ((J'.handle A (m + 1) (.stat e q s)).run A c').1 = .ok (some v)) ↔
    p.stat = s ∨ HMap.get (CacheKey.eq A) c₁ ⟨e, q, s⟩ = some (.val s.ty v) := by
  rw [C49_stays_iff c' e q s hs v]
  have hall : ((J.remember e q p).bind fun _ => CProg.lift (StatMap.readAs s (some p.value))).run A c₁ =
      (.ok (some v), c') := by
    refine Eq.trans ?_ hq
    symm
    suffices key : ∀ y : CProg E Q Ent (Option s.Val), y =
        ((CProg.lift (validate (E.layout s.ty))).bind fun _ =>
          (J.queryStatErased A (J.handle A n) e q s).bind fun o => CProg.lift (StatMap.readAs s o)) →
        y.run A c = ((J.remember e q p).bind fun _ => CProg.lift (StatMap.readAs s (some p.value))).run A c₁ from
      key (J.handle A (n + 1) (.stat e q s)) rfl
    rintro y rfl
    simp only [validate_eq, hs, if_true, CProg.lift_ok, CProg.bind_ret, Joined.queryStatErased, he, Joined.lookup,
      CProg.bind_eq, hc, CProg.bind_get, CProg.run_get, hmiss, Joined.miss,
      CProg.bind_assoc, Defaults.cloned]
    rw [CProg.run_bind, hrun]
  unfold Joined.remember CProg.cachePair at hall
  rw [if_pos hc] at hall
  cases hb : p.cloneBuffer with
  | error x =>
    rw [hb] at hall
    cases hall
  | ok b =>
    rw [hb] at hall
    simp only [CProg.lift_ok, CProg.bind_ret, CProg.bind_put, CProg.run_put, CProg.run_lift, Prod.mk.injEq] at hall
    obtain ⟨hread, rfl⟩ := hall
    rw [HMap.get_insert (CacheKey.eq_iff A)]
    have hval : p.value = .val s.ty v := by
      obtain ⟨v', h1, h2⟩ := Res.bind_eq_ok.1 hread
      cases h2
      by_contra hne
      by_cases hn : ∃ x : s.Val, p.value = .val s.ty x
      · obtain ⟨x, hx⟩ := hn
        rw [hx, Buf.read_val hs] at h1
        cases h1
        exact hne hx
      · rw [(Buf.read_ub hs p.value).2 fun x hx => hn ⟨x, hx⟩] at h1
        cases h1
    by_cases hp : p.stat = s
    · subst hp
      rcases p.cloneBuffer_eq hs with ⟨v', hv', hb'⟩ | ⟨hnv, -⟩
      · rw [hb'] at hb
        cases hb
        rw [if_pos rfl, ← hv', hval]
        simp
      · exact absurd hval (hnv v)
    · rw [if_neg fun h => hp (congrArg CacheKey.stat h)]
      simp [hp]

/-- the witness of `C49_refuted`: the stream leaves a pair of stat 1, so the result of the query of stat 0 does not
stay; nor does it for lack of anything else stored -/
example : ∃ p : Pair demo, p.stat = demoInt 1 ∧
    ((demoSwapped.compute demoAddr (demoSwapped.handle demoAddr 0) 0 demoQ (demoInt 0)).run demoAddr []) = (.ok p, []) ∧
    ((demoSwapped.handle demoAddr 1 (.stat 0 demoQ (demoInt 0))).run demoAddr []).1 =
      .ok (some (⟨7, 0, 10, 1⟩ : StatInt)) ∧
    ¬ ∀ J' : Joined demo (BitVec 8) Nat, J'.world.isStat 0 = true → J'.world.cached = true → ∀ m,
      ((J'.handle demoAddr (m + 1) (.stat 0 demoQ (demoInt 0))).run demoAddr
        ((demoSwapped.handle demoAddr 1 (.stat 0 demoQ (demoInt 0))).run demoAddr []).2).1 =
        .ok (some (⟨7, 0, 10, 1⟩ : StatInt)) := by
  refine ⟨_, rfl, rfl, rfl, ?_⟩
  intro h
  rcases (C49_iff (J := demoSwapped) [] [] _ 0 0 demoQ (demoInt 0) (by decide) rfl rfl (⟨7, 0, 10, 1⟩ : StatInt) _ rfl rfl
    rfl).1 h with h | h <;> cases h

end BSQ
