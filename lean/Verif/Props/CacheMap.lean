import Verif.Spec.CacheMap
import Verif.Props.Debug
import Verif.Proofs.DemoQuerier
/-!
# C85: what the cache resource remembers
-/
namespace BSQ
set_option linter.unusedSectionVars false
variable {E : Env} {Q Ent α : Type} [DecidableEq Q] [DecidableEq Ent] {A : Addr E} {J : Joined E Q Ent}

theorem Pair.new_eq (s : StatInst E) (v : s.Val) :
    Pair.new s v = if Storable (E.layout s.ty) then .ok ⟨s, .val s.ty v⟩ else .error .panic := by
  unfold Pair.new
  rw [Buf.from_eq]
  split <;> rfl

theorem Cache.clear_typed {c : Cache E Q Ent}
    (h : ∀ x ∈ c, Storable (E.layout x.1.stat.ty) ∧ ∃ v : x.1.stat.Val, x.2 = .val x.1.stat.ty v) :
    c.clear = .ok [] := by
  have : Cache.dropAll c = .ok () := by
    induction c with
    | nil => rfl
    | cons x c ih =>
      obtain ⟨hs, v, hv⟩ := h x List.mem_cons_self
      unfold Cache.dropAll
      rw [hv, vtDrop_val hs, Res.bind_ok]
      exact ih (fun y hy => h y (List.mem_cons_of_mem _ hy))
  rw [Cache.clear, this]
  rfl

theorem CacheOp.run_aux (ops : List (CacheOp E Q Ent)) (hs : ∀ o ∈ ops, o.Fits) (c : Cache E Q Ent)
    (hc : ∀ x ∈ c, Storable (E.layout x.1.stat.ty) ∧ ∃ v : x.1.stat.Val, x.2 = .val x.1.stat.ty v) :
    ∃ c', CacheOp.run A ops c = .ok c' ∧
      (∀ x ∈ c', Storable (E.layout x.1.stat.ty) ∧ ∃ v : x.1.stat.Val, x.2 = .val x.1.stat.ty v) ∧
      ∀ k, HMap.get (CacheKey.eq A) c' k = ops.foldl (CacheOp.after k) (HMap.get (CacheKey.eq A) c k) := by
  induction ops generalizing c with
  | nil => exact ⟨c, rfl, hc, fun k => rfl⟩
  | cons o ops ih =>
    have hs' : ∀ o ∈ ops, o.Fits := fun o ho => hs o (List.mem_cons_of_mem _ ho)
    cases o with
    | store e q s v =>
      have hst : Storable (E.layout s.ty) := hs _ List.mem_cons_self
      obtain ⟨c', h1, h2, h3⟩ := ih hs' (HMap.insert (CacheKey.eq A) c ⟨e, q, s⟩ (.val s.ty v)).1 (by
        intro x hx
        rcases HMap.mem_insert (CacheKey.eq_iff A) hx with hx | hx
        · exact hc x hx
        · subst hx
          exact ⟨hst, v, rfl⟩)
      refine ⟨c', ?_, h2, fun k => ?_⟩
      · rw [CacheOp.run, CacheOp.apply, Pair.new_eq, if_pos hst, Res.bind_ok, Cache.cachePair,
          Pair.cloneBuffer, vtClone_val hst, Res.bind_ok, Res.bind_ok]
        exact h1
      · rw [h3, HMap.get_insert (CacheKey.eq_iff A), List.foldl_cons, CacheOp.after]
    | clear =>
      obtain ⟨c', h1, h2, h3⟩ := ih hs' [] (fun x hx => by cases hx)
      refine ⟨c', ?_, h2, fun k => ?_⟩
      · rw [CacheOp.run, CacheOp.apply, Cache.clear_typed hc, Res.bind_ok, h1]
      · rw [h3, List.foldl_cons]
        rfl

/-- C85: whatever is done to a cache, a lookup then finds (a copy of) the value stored last for exactly this
entity, query and stat since the last `clear`, and nothing otherwise -/
theorem C85_recall (ops : List (CacheOp E Q Ent)) (hs : ∀ o ∈ ops, o.Fits) :
    ∃ c, CacheOp.run A ops [] = .ok c ∧
      ∀ e q s, Cache.tryGet A c e q s = .ok (CacheOp.recall ⟨e, q, s⟩ ops) := by
  obtain ⟨c, h1, h2, h3⟩ := CacheOp.run_aux (A := A) ops hs [] (fun x hx => by cases hx)
  refine ⟨c, h1, fun e q s => ?_⟩
  have h4 : HMap.get (CacheKey.eq A) c ⟨e, q, s⟩ = CacheOp.recall ⟨e, q, s⟩ ops := h3 ⟨e, q, s⟩
  rw [Cache.tryGet, h4]
  cases h : CacheOp.recall ⟨e, q, s⟩ ops with
  | none => rfl
  | some b =>
    rw [h] at h4
    obtain ⟨hst, v, hv⟩ := h2 _ (HMap.mem_of_get (CacheKey.eq_iff A) h4)
    change b = .val s.ty v at hv
    rw [Defaults.cloned, hv, vtClone_val hst]
    rfl

/-- C85: the calls return exactly if each stored value fits a buffer; otherwise building the pair panics -/
theorem C85_returns_iff (ops : List (CacheOp E Q Ent)) :
    ((∃ c, CacheOp.run A ops [] = .ok c) ↔ ∀ o ∈ ops, o.Fits) ∧
    ((¬ ∃ c, CacheOp.run A ops [] = .ok c) → CacheOp.run A ops [] = .error .panic) := by
  have key : ∀ (ops : List (CacheOp E Q Ent)) (c : Cache E Q Ent),
      (∀ x ∈ c, Storable (E.layout x.1.stat.ty) ∧ ∃ v : x.1.stat.Val, x.2 = .val x.1.stat.ty v) →
      (¬ ∀ o ∈ ops, o.Fits) → CacheOp.run A ops c = .error .panic := by
    intro ops
    induction ops with
    | nil => intro c _ h; exact absurd (fun o ho => by cases ho) h
    | cons o ops ih =>
      intro c hc h
      by_cases ho : o.Fits
      · obtain ⟨c', h1, h2, -⟩ := CacheOp.run_aux (A := A) [o] (fun x hx => by
          cases List.mem_singleton.1 hx; exact ho) c hc
        have h1' : o.apply A c = .ok c' := by
          rw [CacheOp.run] at h1
          obtain ⟨d, h3, h4⟩ := Res.bind_eq_ok.1 h1
          cases h4
          exact h3
        rw [CacheOp.run, h1', Res.bind_ok]
        refine ih c' h2 (fun hall => h fun x hx => ?_)
        cases hx with
        | head => exact ho
        | tail _ hx => exact hall x hx
      · cases o with
        | clear => exact absurd trivial ho
        | store e q s v =>
          have : ¬ Storable (E.layout s.ty) := ho
          rw [CacheOp.run, CacheOp.apply, Pair.new_eq, if_neg this]
          rfl
  have hnil : ∀ x ∈ ([] : Cache E Q Ent), Storable (E.layout x.1.stat.ty) ∧
      ∃ v : x.1.stat.Val, x.2 = .val x.1.stat.ty v := fun x hx => by cases hx
  refine ⟨⟨fun ⟨c, hc⟩ => ?_, fun hs => ?_⟩, fun hn => ?_⟩
  · by_contra hs
    rw [key ops [] hnil hs] at hc
    cases hc
  · obtain ⟨c, h, -⟩ := C85_recall (A := A) ops hs
    exact ⟨c, h⟩
  · refine key ops [] hnil fun hs => hn ?_
    obtain ⟨c, h, -⟩ := C85_recall (A := A) ops hs
    exact ⟨c, h⟩

/-- C85: queries access the cache by these two operations and no other way: the lookup of a query is
`try_get_cached_dyn`, and its result is stored by `cache_pair` -/
theorem C85_queries (J : Joined E Q Ent) (hw : J.world.cached = true) (e : Ent) (q : QualifierQuery Q)
    (c : Cache E Q Ent) :
    (∀ s, (J.lookup e q s).run A c = (Cache.tryGet A c e q s, c)) ∧
    (∀ p c', Cache.cachePair A c e q p = .ok c' → (J.remember e q p).run A c = (.ok (), c')) ∧
    (∀ p x, Cache.cachePair A c e q p = .error x → (J.remember e q p).run A c = (.error x, c)) := by
  refine ⟨fun s => ?_, fun p c' h => ?_, fun p x h => ?_⟩
  · unfold Joined.lookup
    rw [if_pos hw, CProg.run]
    change (CProg.lift (Cache.tryGet A c e q s)).run A c = _
    cases Cache.tryGet A c e q s <;> rfl
  · unfold Joined.remember
    rw [if_pos hw]
    unfold Cache.cachePair at h
    obtain ⟨b, h1, h2⟩ := Res.bind_eq_ok.1 h
    cases h2
    unfold CProg.cachePair
    rw [h1]
    rfl
  · unfold Joined.remember
    rw [if_pos hw]
    unfold Cache.cachePair at h
    cases h1 : p.cloneBuffer with
    | error y =>
      rw [h1] at h
      cases h
      unfold CProg.cachePair
      rw [h1]
      rfl
    | ok b =>
      rw [h1] at h
      cases h

/-- C85: a value stored by `cache_pair` is what the next query for this entity, query and stat returns, without
asking any source and without changing the cache -/
theorem C85_seeded (J : Joined E Q Ent) (hw : J.world.cached = true) (n : Nat) (e : Ent)
    (he : J.world.isStat e = true) (q : QualifierQuery Q) (s : StatInst E) (hs : Storable (E.layout s.ty))
    (v : s.Val) (ops ops' : List (CacheOp E Q Ent)) (hall : ∀ o ∈ ops ++ ops', o.Fits)
    (hkeep : ∀ o ∈ ops', match o with
      | .store e' q' s' _ => (⟨e', q', s'⟩ : CacheKey E Q Ent) ≠ ⟨e, q, s⟩
      | .clear => False) :
    ∃ c, CacheOp.run A (ops ++ .store e q s v :: ops') [] = .ok c ∧
      (J.handle A (n + 1) (.stat e q s)).run A c = (.ok (some v), c) := by
  obtain ⟨c, h1, h2⟩ := C85_recall (A := A) (ops ++ .store e q s v :: ops') (by
    intro o ho
    rcases List.mem_append.1 ho with ho | ho
    · exact hall o (List.mem_append_left _ ho)
    · cases ho with
      | head => exact hs
      | tail _ ho => exact hall o (List.mem_append_right _ ho))
  refine ⟨c, h1, ?_⟩
  have h3 : CacheOp.recall ⟨e, q, s⟩ (ops ++ .store e q s v :: ops') = some (.val s.ty v) := by
    unfold CacheOp.recall
    rw [List.foldl_append, List.foldl_cons, CacheOp.after, if_pos rfl]
    clear h1 h2 hall
    induction ops' with
    | nil => rfl
    | cons o ops' ih =>
      have ho := hkeep o List.mem_cons_self
      rw [List.foldl_cons]
      cases o with
      | clear => exact ho.elim
      | store e' q' s' v' =>
        rw [CacheOp.after, if_neg ho]
        exact ih (fun o ho => hkeep o (List.mem_cons_of_mem _ ho))
  have h4 := (C85_queries (A := A) J hw e q c).1 s
  rw [h2, h3] at h4
  change (CProg.bind (CProg.lift (validate (E.layout s.ty))) fun _ =>
    CProg.bind (J.queryStatErased A (J.handle A n) e q s) fun o => CProg.lift (StatMap.readAs s o)).run A c = _
  rw [CProg.run_bind, validate_eq, if_pos hs]
  change (CProg.bind (J.queryStatErased A (J.handle A n) e q s) fun o =>
    CProg.lift (StatMap.readAs s o)).run A c = _
  rw [CProg.run_bind]
  unfold Joined.queryStatErased
  rw [if_pos he]
  simp only [bind]
  rw [CProg.run_bind, h4]
  change (CProg.lift (StatMap.readAs s (some (.val s.ty v)))).run A c = _
  have h5 : StatMap.readAs s (some (.val s.ty v)) = .ok (some v) := by
    change (Buf.read s.ty (.val s.ty v) >>= fun v => _) = _
    rw [Buf.read_val hs]
    rfl
  rw [h5]
  rfl

/-- storing, storing again, another key, clearing -/
example : ∃ c, CacheOp.run demoAddr [.store (0 : Nat) demoQ (demoInt 1) (⟨1, 0, 9, 1⟩ : StatInt), .clear,
      .store 0 demoQ (demoInt 1) (⟨2, 0, 9, 1⟩ : StatInt), .store 0 demoQ (demoInt 1) (⟨3, 0, 9, 1⟩ : StatInt),
      .store 1 demoQ (demoInt 1) (⟨4, 0, 9, 1⟩ : StatInt)] [] = .ok c ∧
    Cache.tryGet demoAddr c 0 demoQ (demoInt 1) = .ok (some (.val true (⟨3, 0, 9, 1⟩ : StatInt))) ∧
    Cache.tryGet demoAddr c 0 demoQ (demoInt 2) = .ok none := by
  obtain ⟨c, h1, h2⟩ := C85_recall (A := demoAddr) [.store (0 : Nat) demoQ (demoInt 1) (⟨1, 0, 9, 1⟩ : StatInt),
    .clear, .store 0 demoQ (demoInt 1) (⟨2, 0, 9, 1⟩ : StatInt),
    .store 0 demoQ (demoInt 1) (⟨3, 0, 9, 1⟩ : StatInt), .store 1 demoQ (demoInt 1) (⟨4, 0, 9, 1⟩ : StatInt)] (by
      intro o ho
      simp only [List.mem_cons, List.not_mem_nil, or_false] at ho
      rcases ho with rfl | rfl | rfl | rfl | rfl
      all_goals first | exact trivial | exact (by decide : Storable ⟨16, 8⟩))
  exact ⟨c, h1, (h2 _ _ _).trans rfl, (h2 _ _ _).trans rfl⟩

/-- a seeded cache: the sources would give 211, the query returns what was stored -/
example : ∃ c, CacheOp.run demoAddr ([] ++ CacheOp.store 0 demoQ (demoInt 0) (⟨5, 0, 9, 1⟩ : StatInt) :: []) [] =
      .ok c ∧
    (demoJoined.handle demoAddr 1 (.stat 0 demoQ (demoInt 0))).run demoAddr c =
      ((.ok (some ⟨5, 0, 9, 1⟩) : Res (Option StatInt)), c) :=
  C85_seeded demoJoined rfl 0 0 rfl demoQ (demoInt 0) (by decide) (⟨5, 0, 9, 1⟩ : StatInt) [] []
    (fun o ho => by cases ho) (fun o ho => by cases ho)

end BSQ
