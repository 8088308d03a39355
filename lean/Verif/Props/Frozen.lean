import Verif.Proofs.Frozen
import Verif.Props.CacheTrace
import Verif.Props.Recursion
import Verif.Props.Contents
/-!
# C142: queries on a stale cache

After a change of the world without a clear, results in the cache stay as they are (C49).  Everything else is computed
as if the queries in the cache had these results in the new world.
-/
namespace BSQ
set_option linter.unusedSectionVars false
variable {E : Env} {Q Ent : Type} [DecidableEq Q] [DecidableEq Ent] {A : Addr E}

theorem CacheTyped.holds {c : Cache E Q Ent} (h : CacheTyped c) :
    (∃ f, c.Holds A f) ∧ ∀ f, c.Holds A f → ∀ k, f k ≠ none → Storable (E.layout k.stat.ty) := by
  classical
  have hk : ∀ k, ∃ o : Option k.stat.Val, HMap.get (CacheKey.eq A) c k = o.map (Buf.val k.stat.ty) := by
    intro k
    cases hg : HMap.get (CacheKey.eq A) c k with
    | none => exact ⟨none, rfl⟩
    | some b =>
      obtain ⟨v, hv, -⟩ := h.get k hg
      exact ⟨some v, by rw [hv]; rfl⟩
  refine ⟨⟨fun k => (hk k).choose, fun k => (hk k).choose_spec⟩, fun f hf k hne => ?_⟩
  obtain ⟨v, hv⟩ := Option.ne_none_iff_exists'.1 hne
  have := hf k
  rw [hv] at this
  exact (h.get k this).choose_spec.2

/-- C142: whatever happened before, also with streams that break the rules, there is exactly one assignment of results
to stat queries that describes the cache -/
theorem C142_holds (J : Joined E Q Ent) (evs : List (Event E Q Ent)) :
    ∃! f, (history A J [] evs).2.Holds A f := by
  obtain ⟨f, hf⟩ := (history_cacheTyped (A := A) evs J (c := []) (fun x hx => by cases hx)).holds.1
  refine ⟨f, hf, fun g hg => ?_⟩
  funext k
  have h := (hg k).symm.trans (hf k)
  cases h1 : g k <;> cases h2 : f k <;> rw [h1, h2] at h
  · cases h
  · cases h
  · simp only [Option.map_some, Option.some.injEq] at h
    cases h
    rfl

/-- C142: with no results given, the outcomes are those without a cache -/
theorem C142_empty (J : Joined E Q Ent) (n : Nat) (r : Req E Q Ent) : J.fixed A (fun _ => none) n r = J.answer A n r := by
  induction n generalizing r with
  | zero => rfl
  | succ n ih =>
    have h : J.fixed A (fun _ => none) n = J.answer A n := funext ih
    cases r with
    | stat e q s => rw [Joined.fixed_open (fun _ => rfl), h, Joined.answer_succ]
    | relation a b q s => simp only [Joined.fixed, h, Joined.answer_succ]
    | attr e a => simp only [Joined.fixed, h, Joined.answer_succ]

theorem history_fixed {J : Joined E Q Ent} {f : (k : CacheKey E Q Ent) → Option k.stat.Val} (hJ : J.Safe A)
    (hq : J.Quiet) (hc : J.world.cached = true) (hst : ∀ k, f k ≠ none → Storable (E.layout k.stat.ty))
    (qs : List (Nat × Req E Q Ent)) (c : Cache E Q Ent) (h : FixedCache A J f c) :
    let run := history A J c (qs.map fun x => .query x.1 x.2)
    (run.1.map fun o => (o.depth, o.req)) = qs ∧
    (∀ o ∈ run.1, SettlesAt (fun m => J.fixed A f m o.req) o.depth o.res) ∧ FixedCache A J f run.2 := by
  induction qs generalizing c with
  | nil => exact ⟨rfl, fun o ho => (by cases ho), h⟩
  | cons x qs ih =>
    obtain ⟨h1, h2⟩ := hJ.fixed_run hq hc hst h x.1 x.2
    obtain ⟨h3, h4, h5⟩ := ih _ h2
    refine ⟨?_, ?_, h5⟩
    · change (x.1, x.2) :: _ = _
      rw [h3]
    · intro o ho
      rcases List.mem_cons.1 ho with rfl | ho
      · exact h1
      · exact h4 o ho

/-- C142: after any history, which may leave the cache stale, let the cache hold the results `f`.  Then queries of
well-behaved streams on a well-behaved world, the cache not being cleared, come to what they would come to without a
cache if the queries in `f` had the results given there; and the cache afterwards holds these results and
others computed in that way. -/
theorem C142_frozen (J₀ : Joined E Q Ent) (before : List (Event E Q Ent))
    (f : (k : CacheKey E Q Ent) → Option k.stat.Val) (hf : (history A J₀ [] before).2.Holds A f)
    (J : Joined E Q Ent) (hJ : J.Safe A) (hq : J.Quiet) (hc : J.world.cached = true) (qs : List (Nat × Req E Q Ent)) :
    let run := history A J (history A J₀ [] before).2 (qs.map fun x => .query x.1 x.2)
    (run.1.map fun o => (o.depth, o.req)) = qs ∧
    (∀ o ∈ run.1, SettlesAt (fun m => J.fixed A f m o.req) o.depth o.res) ∧
    (∀ k v, f k = some v → HMap.get (CacheKey.eq A) run.2 k = some (.val k.stat.ty v)) ∧
    ∀ k b, HMap.get (CacheKey.eq A) run.2 k = some b → f k = none →
      ∃ v m, b = .val k.stat.ty v ∧ J.fixed A f m (.stat k.entity k.query k.stat) = .ok (some v) := by
  have hst := (history_cacheTyped (A := A) before J₀ (c := []) (fun x hx => by cases hx)).holds.2 f hf
  obtain ⟨h1, h2, h3⟩ := history_fixed hJ hq hc hst qs _ (.start hf hst)
  refine ⟨h1, h2, fun k v hv => ?_, fun k b hb hk => ?_⟩
  · cases hg : HMap.get (CacheKey.eq A) (history A J (history A J₀ [] before).2 (qs.map fun x => .query x.1 x.2)).2 k with
    | none => exact absurd ((h3 k).1 hg) (by rw [hv]; simp)
    | some b => rw [((h3 k).2 b hg).2 v hv]
  · obtain ⟨v, hv, -, m, hm⟩ := ((h3 k).2 b hb).1 (.inr hk)
    exact ⟨v, m, hv, hm⟩

/-! ### several threads -/

theorem UnclearedReach.good {J : Joined E Q Ent} {c₀ : Cache E Q Ent}
    {okGet : CacheKey E Q Ent → Option (Buf E) → Prop} {okPut : CacheKey E Q Ent → Buf E → Prop}
    {P : (n : Nat) → (r : Req E Q Ent) → Res r.Resp → Prop} (Inv : Cache E Q Ent → Prop)
    (hcode : ∀ n r, CProg.Good okGet okPut (P n r) (J.handle A n r)) (hq : J.Quiet)
    (hget : ∀ c, Inv c → ∀ k, okGet k (HMap.get (CacheKey.eq A) c k))
    (hput : ∀ c k b, Inv c → okPut k b → Inv (HMap.insert (CacheKey.eq A) c k b).1)
    (htyped : ∀ c, Inv c → c.clear = .ok []) (h0 : Inv c₀) {s : Conf E Q Ent} (h : UnclearedReach A J c₀ s) :
    Inv s.cache ∧ ∀ t ∈ s.threads, CProg.Good okGet okPut (P t.depth t.req) t.code ∧ t.code.NoClear := by
  induction h with
  | init => exact ⟨h0, fun t ht => (by cases ht)⟩
  | step _ hstep hne ih =>
    obtain ⟨hc, ht⟩ := ih
    cases hstep with
    | start c ts n r =>
      refine ⟨hc, fun t h => ?_⟩
      rcases List.mem_append.1 h with h | h
      · exact ht t h
      · cases List.mem_singleton.1 h
        exact ⟨hcode n r, hq.noClear A n r⟩
    | get c ts i n r k f hi =>
      refine ⟨hc, fun t h => ?_⟩
      rcases List.mem_or_eq_of_mem_set h with h | rfl
      · exact ht t h
      · obtain ⟨h1, h2⟩ := ht _ (List.mem_of_getElem? hi)
        exact ⟨h1 _ (hget c hc k), h2 _⟩
    | put c ts i n r k b f hi =>
      obtain ⟨h1, h2⟩ := ht _ (List.mem_of_getElem? hi)
      refine ⟨hput _ _ _ hc h1.1, fun t h => ?_⟩
      rcases List.mem_or_eq_of_mem_set h with h | rfl
      · exact ht t h
      · exact ⟨h1.2, h2⟩
    | clear c c' ts h =>
      rw [htyped c hc] at h
      cases h
      refine ⟨?_, ht⟩
      have hne' : c = [] := hne rfl
      change Inv []
      exact hne' ▸ hc
    | wipe c c' ts i n r f hi h => exact ((ht _ (List.mem_of_getElem? hi)).2 : False).elim
    | wipeFail c e ts i n r f hi h => exact ((ht _ (List.mem_of_getElem? hi)).2 : False).elim

/-- C142: the same for any number of threads that query at the same time, interleaved in any way -/
theorem C142_threads (J₀ : Joined E Q Ent) (before : List (Event E Q Ent))
    (f : (k : CacheKey E Q Ent) → Option k.stat.Val) (hf : (history A J₀ [] before).2.Holds A f)
    (J : Joined E Q Ent) (hJ : J.Safe A) (hq : J.Quiet) (hc : J.world.cached = true) (s : Conf E Q Ent)
    (hs : UnclearedReach A J (history A J₀ [] before).2 s) :
    (∀ t ∈ s.threads,
      (∀ x, t.code = .ret x → SettlesAt (fun m => J.fixed A f m t.req) t.depth (.ok x)) ∧
      (∀ x, t.code = .fail x → SettlesAt (fun m => J.fixed A f m t.req) t.depth (.error x))) ∧
    (∀ k v, f k = some v → HMap.get (CacheKey.eq A) s.cache k = some (.val k.stat.ty v)) ∧
    ∀ k b, HMap.get (CacheKey.eq A) s.cache k = some b → f k = none →
      ∃ v m, b = .val k.stat.ty v ∧ J.fixed A f m (.stat k.entity k.query k.stat) = .ok (some v) := by
  have hty := history_cacheTyped (A := A) before J₀ (c := []) (fun x hx => by cases hx)
  have hst := hty.holds.2 f hf
  obtain ⟨⟨h3, -⟩, h4⟩ := hs.good (P := fun n r => Faith (fun m => J.fixed A f m r) n)
    (okGet := FixedGet A J f) (okPut := fun k b => FixedPut A J f k b)
    (fun c => FixedCache A J f c ∧ CacheTyped c)
    (fun n r => hJ.fixed_good hq.noStore hc hst n r) hq (fun c h k => h.1.get k)
    (fun c k b h hb => ⟨h.1.insert hb, h.2.insert (hb.1.elim fun v hv => ⟨v, hv.1, hv.2.1⟩)⟩)
    (fun c h => h.2.clear) ⟨.start hf hst, hty⟩
  refine ⟨fun t ht => ⟨fun x hx => ?_, fun x hx => ?_⟩, fun k v hv => ?_, fun k b hb hk => ?_⟩
  · have := (h4 t ht).1
    rw [hx] at this
    exact this
  · have := (h4 t ht).1
    rw [hx] at this
    exact this
  · cases hg : HMap.get (CacheKey.eq A) s.cache k with
    | none => exact absurd ((h3 k).1 hg) (by rw [hv]; simp)
    | some b => rw [((h3 k).2 b hg).2 v hv]
  · obtain ⟨v, hv, -, m, hm⟩ := ((h3 k).2 b hb).1 (.inr hk)
    exact ⟨v, m, hv, hm⟩

/-! ### when no clear is needed -/

theorem Faith.pure_bind {α β : Type} {X : Nat → Res α} {F : Nat → α → Res β} {n : Nat} {x : Res α} {g : α → Res β}
    (hx : Faith X n x) (hX : DepthMono X) (hF : ∀ a, DepthMono (fun n => F n a))
    (hg : ∀ a, (∃ m, X m = .ok a) → Faith (fun m => F m a) n (g a)) : Faith (fun m => X m >>= F m) n (x >>= g) := by
  have h := (Faith.bind (E := demo) (Q := Unit) (Ent := Unit) (okGet := fun _ _ => True) (okPut := fun _ _ => True)
    (x := CProg.lift x) (f := fun a => CProg.lift (g a)) (CProg.Good.lift hx) hX hF
    (fun a ha => CProg.Good.lift (hg a ha))).cold (fun _ => trivial)
  rw [CProg.cold_bind, CProg.cold_lift] at h
  simpa only [CProg.cold_lift] using h

section
variable {J : Joined E Q Ent} {f : (k : CacheKey E Q Ent) → Option k.stat.Val} {n : Nat} {o : Oracle E Q Ent}

/-- code whose questions are answered faithfully, as far as it puts them, has a faithful outcome -/
theorem Faith.made {α : Type} (p : Prog E Q Ent α)
    (hp : ∀ r' m, p.Makes (J.answer A m) r' → Faith (fun m => J.answer A m r') n (o r')) :
    Faith (fun m => p.eval (J.answer A m)) n (p.eval o) := by
  induction p with
  | ret a => exact Faith.self (fun _ => .ok a) n
  | fail e => exact Faith.self (fun _ => .error e) n
  | ask r k ih =>
    refine Faith.pure_bind (hp r 0 (.inl rfl)) (answer_mono r) (fun a => DepthMono.eval answer_mono (k a)) ?_
    rintro a ⟨m₀, h₀⟩
    refine ih a fun r' m hm => hp r' (max m₀ m) (.inr ⟨a, ?_, hm.le fun r => answer_mono r _ _ (Nat.le_max_right _ _)⟩)
    exact (answer_mono r m₀ (max m₀ m) (Nat.le_max_left _ _) (by simp only; rw [h₀]; simp)).trans h₀
  | attempt r k ih =>
    have h1 := hp r 0 (.inl rfl)
    refine Faith.pure_bind (X := fun m => (J.answer A m r).attempt) (F := fun m x => (k x).eval (J.answer A m))
      ⟨fun hne => by rw [h1.1 fun h => hne (by simp only [h]; rfl)], fun hne => ?_⟩ (answer_mono r).attempt
      (fun a => DepthMono.eval answer_mono (k a)) ?_
    · obtain ⟨m, hm⟩ := h1.2 fun h => hne (by rw [h]; rfl)
      exact ⟨m, by simp only [hm]⟩
    · rintro a ⟨m₀, h₀⟩
      refine ih a fun r' m hm => hp r' (max m₀ m)
        (.inr ⟨a, ?_, hm.le fun r => answer_mono r _ _ (Nat.le_max_right _ _)⟩)
      exact ((answer_mono r).attempt m₀ (max m₀ m) (Nat.le_max_left _ _) (by simp only; rw [h₀]; simp)).trans h₀
  | clear k ih => exact ih hp
  | store e q p k ih =>
    exact Faith.pure_bind (X := fun _ => p.cloneBuffer) (F := fun m _ => k.eval (J.answer A m)) (Faith.self _ n)
      (DepthMono.const _) (fun _ => DepthMono.eval answer_mono k)
      fun b hb => ih fun r' m hm => hp r' m ⟨⟨b, hb.elim fun _ h => h⟩, hm⟩

theorem Faith.calls_made (l : List (Call E Q Ent)) (p : Pair E)
    (hp : ∀ r' m, callsMake (J.answer A m) r' l p → Faith (fun m => J.answer A m r') n (o r')) :
    Faith (fun m => runCalls (J.answer A m) l p) n (runCalls o l p) := by
  induction l generalizing p with
  | nil => exact Faith.self (fun _ => .ok p) n
  | cons c l ih =>
    refine Faith.pure_bind (Faith.made (c p) fun r' m hm => hp r' m (.inl hm)) (DepthMono.eval answer_mono _)
      (fun _ => DepthMono.calls answer_mono l _) ?_
    rintro p' ⟨m₀, h₀⟩
    refine ih p' fun r' m hm => hp r' (max m₀ m) (.inr ⟨p', ?_, hm.le (Nat.le_max_right _ _)⟩)
    exact (DepthMono.eval answer_mono (c p) m₀ _ (Nat.le_max_left _ _) (by simp only; rw [h₀]; simp)).trans h₀

theorem Faith.any_made (l : List (Prog E Q Ent Bool))
    (hp : ∀ r' m, anyMake (J.answer A m) r' l → Faith (fun m => J.answer A m r') n (o r')) :
    Faith (fun m => anyCalls (J.answer A m) l) n (anyCalls o l) := by
  induction l with
  | nil => exact Faith.self (fun _ => .ok false) n
  | cons c l ih =>
    refine Faith.pure_bind (F := fun m b => if b then .ok true else anyCalls (J.answer A m) l)
      (Faith.made c fun r' m hm => hp r' m (.inl hm)) (DepthMono.eval answer_mono _) (fun b => ?_) ?_
    · cases b
      · exact DepthMono.any answer_mono l
      · exact DepthMono.const _
    · rintro b ⟨m₀, h₀⟩
      cases b
      · refine ih fun r' m hm => hp r' (max m₀ m) (.inr ⟨?_, hm.le (Nat.le_max_right _ _)⟩)
        exact (DepthMono.eval answer_mono c m₀ _ (Nat.le_max_left _ _) (by simp only; rw [h₀]; simp)).trans h₀
      · exact Faith.self (fun _ => .ok true) n

theorem Joined.ideal_faith (r : Req E Q Ent)
    (ho : ∀ r', J.Nests A r' r → Faith (fun m => J.answer A m r') n (o r')) :
    Faith (fun m => J.answer A (m + 1) r) n (J.ideal A o r) := by
  have ho' : ∀ r' m, J.Makes A (J.answer A m) r' r → Faith (fun m => J.answer A m r') n (o r') :=
    fun r' m h => ho r' ⟨m, h⟩
  simp only [J.answer_succ]
  cases r with
  | stat e q s =>
    refine Faith.pure_bind (X := fun _ => validate (E.layout s.ty))
      (F := fun m _ => if J.world.isStat e then _ else _) (Faith.self _ n) (DepthMono.const _) ?_ ?_
    · intro _
      cases J.world.isStat e
      · exact DepthMono.const _
      · exact DepthMono.bind (DepthMono.const _) fun v => DepthMono.bind (DepthMono.calls answer_mono _ _) fun _ =>
          DepthMono.const _
    · rintro _ ⟨_, hv⟩
      have hs : Storable (E.layout s.ty) := by
        rw [validate_eq] at hv
        by_contra hs
        simp [hs] at hv
      cases he : J.world.isStat e
      · exact Faith.self (fun _ => .ok none) n
      · exact Faith.pure_bind (X := fun _ => J.world.startValue A s) (Faith.self _ n) (DepthMono.const _)
          (fun v => DepthMono.bind (DepthMono.calls answer_mono _ _) fun _ => DepthMono.const _)
          (fun v hv => Faith.pure_bind
            (Faith.calls_made _ _ fun r' m h => ho' r' m ⟨hs, he, v, hv.elim fun _ h => h, h⟩)
            (DepthMono.calls answer_mono _ _) (fun _ => DepthMono.const _) (fun p _ => Faith.self (fun _ => _) n))
  | relation a b q s =>
    refine Faith.pure_bind (X := fun _ => validate (E.layout s.ty))
      (F := fun m _ => if J.world.isStat a && J.world.isStat b then _ else _) (Faith.self _ n) (DepthMono.const _) ?_ ?_
    · intro _
      cases J.world.isStat a && J.world.isStat b
      · exact DepthMono.const _
      · exact DepthMono.bind (DepthMono.const _) fun v => DepthMono.bind (DepthMono.calls answer_mono _ _) fun _ =>
          DepthMono.const _
    · rintro _ ⟨_, hv⟩
      have hs : Storable (E.layout s.ty) := by
        rw [validate_eq] at hv
        by_contra hs
        simp [hs] at hv
      cases he : J.world.isStat a && J.world.isStat b
      · exact Faith.self (fun _ => .ok none) n
      · rw [Bool.and_eq_true] at he
        exact Faith.pure_bind (X := fun _ => J.world.startValue A s) (Faith.self _ n) (DepthMono.const _)
          (fun v => DepthMono.bind (DepthMono.calls answer_mono _ _) fun _ => DepthMono.const _)
          (fun v hv => Faith.pure_bind
            (Faith.calls_made _ _ fun r' m h => ho' r' m ⟨hs, he.1, he.2, v, hv.elim fun _ h => h, h⟩)
            (DepthMono.calls answer_mono _ _) (fun _ => DepthMono.const _) (fun p _ => Faith.self (fun _ => _) n))
  | attr e a => exact Faith.any_made _ fun r' m h => ho' r' m h

theorem Joined.fixed_right (n : Nat) (r : Req E Q Ent)
    (hf : ∀ k v, f k = some v → J.world.isStat k.entity = true →
      J.Needs A (.stat k.entity k.query k.stat) r →
      ∃ m, J.answer A m (.stat k.entity k.query k.stat) = .ok (some v)) :
    Faith (fun m => J.answer A m r) n (J.fixed A f n r) := by
  induction n generalizing r with
  | zero => exact ⟨fun h => absurd rfl h, fun h => absurd rfl h⟩
  | succ n ih =>
    have hi := Faith.shift (X := fun m => J.answer A m r) (J.ideal_faith (n := n) (o := J.fixed A f n) r
      fun r' hr' => ih r' fun k v hv he hn => hf k v hv he (hn.tail hr'))
    cases r with
    | stat e q s =>
      by_cases h : J.world.isStat e = true → f ⟨e, q, s⟩ = none
      · rw [J.fixed_open h]
        exact hi
      · push Not at h
        obtain ⟨he, h⟩ := h
        obtain ⟨v, hv⟩ := Option.ne_none_iff_exists'.1 h
        obtain ⟨m, hm⟩ := hf _ v hv he .refl
        rw [J.fixed_held he hv]
        refine ⟨fun hne => ?_, fun _ => ⟨m, hm⟩⟩
        rcases Nat.le_total (n + 1) m with hle | hle
        · exact (hm.symm.trans (answer_mono _ _ _ hle hne))
        · exact (hm.symm.trans (answer_mono _ _ _ hle (by simp only; rw [hm]; simp)).symm)
    | relation a b q s => exact hi
    | attr e a => exact hi

end

/-- C142: a request gives the result of the current world without clearing, if those of the cached results that it
involves in the current world are right, whatever the others are -/
theorem C142_right_for (J₀ : Joined E Q Ent) (before : List (Event E Q Ent))
    (f : (k : CacheKey E Q Ent) → Option k.stat.Val) (hf : (history A J₀ [] before).2.Holds A f)
    (J : Joined E Q Ent) (hJ : J.Safe A) (hq : J.Quiet) (hc : J.world.cached = true) (r : Req E Q Ent)
    (hr : ∀ k v, f k = some v → J.world.isStat k.entity = true → J.Needs A (.stat k.entity k.query k.stat) r →
      ∃ m, J.answer A m (.stat k.entity k.query k.stat) = .ok (some v)) (qs : List (Nat × Req E Q Ent)) :
    ∀ o ∈ (history A J (history A J₀ [] before).2 (qs.map fun x => .query x.1 x.2)).1, o.req = r →
      Faithful A J o.depth o.req o.res := by
  rintro o ho rfl
  obtain ⟨-, h2, -⟩ := C142_frozen J₀ before f hf J hJ hq hc qs
  obtain ⟨h3, h4⟩ := h2 o ho
  have hr := fun n => Joined.fixed_right n o.req hr
  refine ⟨fun hne => ?_, fun hne => ?_⟩
  · have := (hr o.depth).1 hne
    simp only at this h3
    rw [this] at h3
    exact h3 hne
  · obtain ⟨m, hm⟩ := h4 hne
    simp only at hm
    rw [← hm]
    exact (hr m).2 (by rw [hm]; exact hne)

/-- C142: after a history that left the results `f` in the cache, all queries give the results of the current world
without clearing, if and only if each cached result of a `StatEntity` is its result in the current world -/
theorem C142_right_iff (J₀ : Joined E Q Ent) (before : List (Event E Q Ent))
    (f : (k : CacheKey E Q Ent) → Option k.stat.Val) (hf : (history A J₀ [] before).2.Holds A f)
    (J : Joined E Q Ent) (hJ : J.Safe A) (hq : J.Quiet) (hc : J.world.cached = true) :
    (∀ qs : List (Nat × Req E Q Ent),
      ∀ o ∈ (history A J (history A J₀ [] before).2 (qs.map fun x => .query x.1 x.2)).1,
        Faithful A J o.depth o.req o.res) ↔
    ∀ k v, f k = some v → J.world.isStat k.entity = true →
      ∃ m, J.answer A m (.stat k.entity k.query k.stat) = .ok (some v) := by
  constructor
  · intro h k v hv he
    have h1 := h [(1, .stat k.entity k.query k.stat)] _ (List.mem_singleton.2 rfl)
    obtain ⟨-, h2, -⟩ := C142_frozen J₀ before f hf J hJ hq hc [(1, .stat k.entity k.query k.stat)]
    have h3 := (h2 _ (List.mem_singleton.2 rfl)).1 (by
      simp only [J.fixed_held (f := f) he hv]; simp)
    simp only [J.fixed_held (f := f) he hv] at h3
    obtain ⟨m, hm⟩ := h1.2 (by rw [h3]; simp)
    exact ⟨m, hm.trans h3⟩
  · exact fun h qs o ho => C142_right_for J₀ before f hf J hJ hq hc o.req (fun k v hv he _ => h k v hv he) qs o ho rfl

/-! ### nothing is stored twice -/

theorem Joined.Quiet.uncached_fresh {J : Joined E Q Ent} (hq : J.Quiet) (hcd : J.world.cached = false) (n : Nat)
    (r : Req E Q Ent) : (J.handle A n r).FreshInv A fun _ => True := by
  induction n generalizing r with
  | zero => exact .lift (.error .fuel)
  | succ n ih =>
    cases r with
    | stat e q s =>
      change CProg.FreshInv A _ ((CProg.lift _).bind fun _ => _)
      refine (CProg.FreshInv.lift _).bind fun _ => CProg.FreshInv.bind ?_ fun _ => .lift _
      unfold Joined.queryStatErased
      cases he : J.world.isStat e with
      | false => exact .lift (.ok none)
      | true =>
        simp only [if_true]
        have hcomp : (J.compute A (J.handle A n) e q s).FreshInv A fun _ => True := by
          rw [J.compute_eq]
          exact (CProg.FreshInv.lift _).bind fun v => callsCode_freshInv ih _ (hq.stat e q) _
        simp only [Joined.lookup, Joined.miss, Joined.remember, hcd, CProg.bind_eq]
        exact hcomp.bind fun p => .lift (.ok (some p.value))
    | relation a b q s =>
      change CProg.FreshInv A _ ((CProg.lift _).bind fun _ => _)
      refine (CProg.FreshInv.lift _).bind fun _ => CProg.FreshInv.bind ?_ fun _ => .lift _
      rw [J.queryRelationErased_eq]
      cases J.world.isStat a && J.world.isStat b with
      | false => exact .lift (.ok none)
      | true =>
        simp only [if_true]
        exact (CProg.FreshInv.lift _).bind fun v => (callsCode_freshInv ih _ (hq.relation a b q) _).bind fun p =>
          .lift (.ok (some p.value))
    | attr e a =>
      change CProg.FreshInv A _ (J.hasAttributeErased _ e a)
      rw [J.hasAttributeErased_eq]
      exact anyCode_freshInv ih _ (hq.attr e a)

theorem Joined.Safe.stale_fresh {J : Joined E Q Ent} (hJ : J.Safe A) (hq : J.Quiet) {c : Cache E Q Ent}
    (hc : CacheTyped c) (n : Nat) (r : Req E Q Ent) : (J.handle A n r).Fresh A c := by
  cases hcd : J.world.cached with
  | false => exact (hq.uncached_fresh hcd n r c trivial).1
  | true =>
    obtain ⟨f, hf⟩ := (hc.holds (A := A)).1
    have hst := hc.holds.2 f hf
    exact (hJ.fixed_fresh hq hcd hst n r c (.start hf hst)).1

theorem stale_noneTwice (evs : List (Event E Q Ent)) (J : Joined E Q Ent) (c : Cache E Q Ent) (hJ : J.Safe A)
    (hq : J.Quiet) (hs : SafeChanges A evs) (hqs : ∀ J', Event.change J' ∈ evs → J'.Quiet) (hc : CacheTyped c)
    (ks : List (CacheKey E Q Ent)) (hks : KeysOf A c ks) : NoneTwice ks (historyAccesses A J c evs) := by
  induction evs generalizing J c ks with
  | nil => trivial
  | cons ev evs ih =>
    have hs' : SafeChanges A evs := fun J' hJ' => hs J' (List.mem_cons_of_mem _ hJ')
    have hqs' : ∀ J', Event.change J' ∈ evs → J'.Quiet := fun J' hJ' => hqs J' (List.mem_cons_of_mem _ hJ')
    cases ev with
    | query n r =>
      exact (hJ.stale_fresh hq hc n r).noneTwice hks _ fun ks' hks' =>
        ih J _ hJ hq hs' hqs' (J.run_cacheTyped hc n r) ks' hks'
    | clear =>
      simp only [historyAccesses, hc.clear, NoneTwice]
      exact ih J [] hJ hq hs' hqs' (fun x hx => by cases hx) [] (fun k => by simp [HMap.get])
    | change J' => exact ih J' c (hs J' List.mem_cons_self) (hqs J' List.mem_cons_self) hs' hqs' hc ks hks

/-- C142: also without clears after changes, each result is stored at most once between two clears, if streams do not
clear the cache in mid-query -/
theorem C142_once (J : Joined E Q Ent) (evs : List (Event E Q Ent)) (hJ : J.Safe A) (hq : J.Quiet)
    (hs : SafeChanges A evs) (hqs : ∀ J', Event.change J' ∈ evs → J'.Quiet) :
    NoneTwice [] (historyAccesses A J [] evs) :=
  stale_noneTwice evs J [] hJ hq hs hqs (fun x hx => by cases hx) [] (fun k => by simp [HMap.get])

/-- C142: so a stale cache gives wrong results (C49), but nothing leaks from it -/
theorem C142_no_leak (J : Joined E Q Ent) (evs : List (Event E Q Ent)) (hJ : J.Safe A) (hq : J.Quiet)
    (hs : SafeChanges A evs) (hqs : ∀ J', Event.change J' ∈ evs → J'.Quiet) (opTy : CacheKey E Q Ent → E.U) :
    let log := ((HState.run (CacheKey.eq A) (fun k => k.stat.ty) opTy (historyAccesses A J [] evs)).finish
      (fun k => k.stat.ty)).log
    Sound log ∧ unreleased log = [] := by
  classical
  obtain ⟨h1, h2⟩ := (C142_once J evs hJ hq hs hqs).leaks (ty := fun k => k.stat.ty) (ks' := []) (by simp)
    (historyAccesses_kind J [] evs)
  exact ⟨C58_sound_partial (CacheKey.eq_iff A) opTy _ h2,
    List.length_eq_zero_iff.1 ((C58_exact_partial (CacheKey.eq_iff A) opTy _ h2).trans h1)⟩

/-! ### a case: one stat is stale, another is computed from it -/

theorem demoChained_quiet : demoChained.Quiet := by
  refine .of_streams (fun g hg => ?_) (fun st hst e it _ this q => ?_) (fun st hst => ?_)
    (fun st hst e it _ this a => ?_)
  · cases hg
  · cases List.mem_singleton.1 hst
    intro p
    change Prog.Quiet (if p.stat.vt = true ∧ 0 < p.stat.index then _ else _)
    split
    · exact fun x => demoAdd_quiet _ p
    · trivial
  · cases hst
  · cases List.mem_singleton.1 hst; trivial

/-- stat 1 of entity 0 is 211 in the first world; it is not cleared when the world changes -/
def demoStale : Cache demo (BitVec 8) Nat :=
  (history demoAddr demoJoined [] [.query 1 (.stat 0 demoQ (demoInt 1)), .change demoChained]).2

example : demoStale = [(⟨0, demoQ, demoInt 1⟩, .val true (⟨211, -2147483648, 2147483647, 1⟩ : StatInt))] := rfl

/-- stat 3 is 213 in the second world, as stat 1 stays 211; it would be 3 if stat 1 was computed -/
example : ((demoChained.handle demoAddr 3 (.stat 0 demoQ (demoInt 3))).run demoAddr demoStale).1 =
      (.ok (some ⟨213, -2147483648, 2147483647, 1⟩) : Res (Option StatInt)) ∧
    demoChained.answer demoAddr 4 (.stat 0 demoQ (demoInt 3)) =
      (.ok (some ⟨3, -2147483648, 2147483647, 1⟩) : Res (Option StatInt)) := ⟨rfl, rfl⟩

/-- the same as the theorem gives it, whatever the depth -/
example (n : Nat) (f : (k : CacheKey demo (BitVec 8) Nat) → Option k.stat.Val) (hf : demoStale.Holds demoAddr f) :
    ∀ o ∈ (history demoAddr demoChained demoStale [.query n (.stat 0 demoQ (demoInt 3))]).1,
      SettlesAt (fun m => demoChained.fixed demoAddr f m o.req) o.depth o.res :=
  (C142_frozen demoJoined [.query 1 (.stat 0 demoQ (demoInt 1)), .change demoChained] f hf demoChained
    demoChained_safe demoChained_quiet rfl [(n, .stat 0 demoQ (demoInt 3))]).2.1

/-- two threads: the first has asked for stat 3 and found that it is not there, the second has asked for stat 1 and
found the old result -/
example : ∃ t, UnclearedReach demoAddr demoChained demoStale ⟨demoStale, [t, ⟨1, .stat 0 demoQ (demoInt 1),
    .ret (some ⟨211, -2147483648, 2147483647, 1⟩ : Option StatInt)⟩]⟩ ∧ ∀ x, t.code ≠ .ret x := by
  have h1 := (UnclearedReach.init (A := demoAddr) (J := demoChained) (c₀ := demoStale)).step
    (Step.start demoStale [] 3 (.stat 0 demoQ (demoInt 3))) id
  have h2 := h1.step (Step.get demoStale _ 0 3 _ _ _ rfl) id
  have h3 := h2.step (Step.start demoStale _ 1 (.stat 0 demoQ (demoInt 1))) id
  have h4 := h3.step (Step.get demoStale _ 1 1 _ _ _ rfl) id
  exact ⟨_, h4, fun x hx => by cases hx⟩

/-- here a clear is needed: stat 1 is 211 in the cache and 1 in the second world -/
example : ¬ ∀ qs : List (Nat × Req demo (BitVec 8) Nat),
    ∀ o ∈ (history demoAddr demoChained demoStale (qs.map fun x => .query x.1 x.2)).1,
      Faithful demoAddr demoChained o.depth o.req o.res := by
  intro h
  obtain ⟨m, hm⟩ := (h [(1, .stat 0 demoQ (demoInt 1))] _ (List.mem_singleton.2 rfl)).2 (by
    intro h; cases h)
  have h2 : demoChained.answer demoAddr 2 (.stat 0 demoQ (demoInt 1)) =
    (.ok (some ⟨1, -2147483648, 2147483647, 1⟩) : Res (Option StatInt)) := rfl
  have h3 : demoChained.answer demoAddr m (.stat 0 demoQ (demoInt 1)) =
    (.ok (some ⟨211, -2147483648, 2147483647, 1⟩) : Res (Option StatInt)) := hm
  have h4 : demoChained.answer demoAddr 2 (.stat 0 demoQ (demoInt 1)) =
      demoChained.answer demoAddr m (.stat 0 demoQ (demoInt 1)) := by
    rcases Nat.le_total 2 m with h | h
    · exact (answer_mono _ _ _ h (by simp only; rw [h2]; intro h; cases h)).symm
    · exact answer_mono _ _ _ h (by simp only; rw [h3]; intro h; cases h)
  rw [h2, h3] at h4
  cases h4

/-- but not for stat 0, which asks for nothing: whatever is asked before, it comes out as in the second world -/
example (f : (k : CacheKey demo (BitVec 8) Nat) → Option k.stat.Val) (hf : demoStale.Holds demoAddr f)
    (qs : List (Nat × Req demo (BitVec 8) Nat)) :
    ∀ o ∈ (history demoAddr demoChained demoStale (qs.map fun x => .query x.1 x.2)).1,
      o.req = .stat 0 demoQ (demoInt 0) → Faithful demoAddr demoChained o.depth o.req o.res := by
  refine C142_right_for demoJoined [.query 1 (.stat 0 demoQ (demoInt 1)), .change demoChained] f hf demoChained
    demoChained_safe demoChained_quiet rfl _ (fun k v hv _ hn => ?_) qs
  have hno : ∀ r', ¬ demoChained.Nests demoAddr r' (.stat 0 demoQ (demoInt 0)) := by
    rintro r' ⟨m, -, -, v, -, h⟩
    have h' : (False ∨ ∃ p', _ ∧ False) := h
    simp at h'
  rcases Relation.ReflTransGen.cases_tail hn with h | ⟨r, _, h⟩
  · have hk := hf k
    rw [hv] at hk
    have hx : HMap.get (CacheKey.eq demoAddr) demoStale k = some (.val k.stat.ty v) := hk
    have hm := HMap.mem_of_get (CacheKey.eq_iff demoAddr) hx
    have hm : (k, Buf.val k.stat.ty v) ∈ [((⟨0, demoQ, demoInt 1⟩ : CacheKey demo (BitVec 8) Nat),
      (Buf.val true (⟨211, -2147483648, 2147483647, 1⟩ : StatInt) : Buf demo))] := hm
    cases List.mem_singleton.1 hm
    cases h
  · exact absurd h (hno r)

/-- here it is not: stat 0 of entity 1 is 11 in both worlds, although they differ otherwise -/
example (f : (k : CacheKey demo (BitVec 8) Nat) → Option k.stat.Val)
    (hf : (history demoAddr demoJoined [] [.query 1 (.stat 1 demoQ (demoInt 0))]).2.Holds demoAddr f) :
    ∀ qs : List (Nat × Req demo (BitVec 8) Nat),
      ∀ o ∈ (history demoAddr (demoWorld.withComponent demoComp)
        (history demoAddr demoJoined [] [.query 1 (.stat 1 demoQ (demoInt 0))]).2 (qs.map fun x => .query x.1 x.2)).1,
        Faithful demoAddr (demoWorld.withComponent demoComp) o.depth o.req o.res := by
  refine (C142_right_iff demoJoined _ f hf (demoWorld.withComponent demoComp) ?_ ?_ rfl).2 ?_
  · constructor
    · intro g hg e q
      cases List.mem_singleton.1 hg
      exact demoAdd_safe 1
    · intro st hst e it _ this q
      cases List.mem_singleton.1 hst
      exact demoAdd_safe _
    · intro st hst a b q; cases hst
    · intro st hst e it _ this a
      cases List.mem_singleton.1 hst
      intro h; cases h
    · intro d hd; cases hd
  · refine .of_streams (fun g hg => ?_) (fun st hst e it _ this q => ?_) (fun st hst => ?_)
      (fun st hst e it _ this a => ?_)
    · cases List.mem_singleton.1 hg; exact fun _ _ => demoAdd_quiet 1
    · cases List.mem_singleton.1 hst; exact demoAdd_quiet _
    · cases hst
    · cases List.mem_singleton.1 hst; trivial
  · intro k v hv _
    have hk := hf k
    rw [hv] at hk
    have hx : HMap.get (CacheKey.eq demoAddr)
        [((⟨1, demoQ, demoInt 0⟩ : CacheKey demo (BitVec 8) Nat),
          (Buf.val true (⟨11, -2147483648, 2147483647, 1⟩ : StatInt) : Buf demo))] k =
        some (.val k.stat.ty v) := hk
    have hm := HMap.mem_of_get (CacheKey.eq_iff demoAddr) hx
    cases List.mem_singleton.1 hm
    exact ⟨1, rfl⟩

/-- stats 3 and 2 are stored in the second world, stat 1 is not stored again -/
example : NoneTwice [] (historyAccesses demoAddr demoJoined []
      [.query 1 (.stat 0 demoQ (demoInt 1)), .change demoChained, .query 3 (.stat 0 demoQ (demoInt 3))]) ∧
    historyAccesses demoAddr demoJoined []
      [.query 1 (.stat 0 demoQ (demoInt 1)), .change demoChained, .query 3 (.stat 0 demoQ (demoInt 3))] =
      [.lookup ⟨0, demoQ, demoInt 1⟩, .insert ⟨0, demoQ, demoInt 1⟩, .lookup ⟨0, demoQ, demoInt 3⟩,
       .lookup ⟨0, demoQ, demoInt 2⟩, .lookup ⟨0, demoQ, demoInt 1⟩, .insert ⟨0, demoQ, demoInt 2⟩,
       .insert ⟨0, demoQ, demoInt 3⟩] :=
  ⟨C142_once demoJoined _ demoJoined_safe demoJoined_quiet
    (by intro J hJ
        simp only [List.mem_cons, reduceCtorEq, List.not_mem_nil, false_or, or_false, Event.change.injEq] at hJ
        subst hJ; exact demoChained_safe)
    (by intro J hJ
        simp only [List.mem_cons, reduceCtorEq, List.not_mem_nil, false_or, or_false, Event.change.injEq] at hJ
        subst hJ; exact demoChained_quiet), rfl⟩

/-! ### streams that clear -/

/-- integer stat 1 asks for stat 0, and if that is large, clears the cache and asks for stat 2; stat 2 asks for stat 1 -/
def demoFlip : CStream demo (BitVec 8) Nat where
  Item := Nat
  query e := some e
  stream e _ q p :=
    if p.stat.index = 1 then
      .ask (.stat e q (demoInt 0)) fun (o : Option StatInt) =>
        if 100 ≤ (o.elim 0 (·.addend)) then .clear (.ask (.stat e q (demoInt 2)) fun _ => .ret p) else .ret p
    else if p.stat.index = 2 then .ask (.stat e q (demoInt 1)) fun _ => .ret p
    else .ret p

def demoFlipped : Joined demo (BitVec 8) Nat := ({ demoWorld with relations := none }).withComponent demoFlip

theorem demoFlipped_safe : demoFlipped.Safe demoAddr where
  globals g hg e q := by cases hg
  streams st hst e it _ this q := by
    cases List.mem_singleton.1 hst
    intro p hp
    change Prog.All _ (if p.stat.index = 1 then _ else _)
    split
    · intro o
      change Prog.All _ (if _ then _ else _)
      split
      · exact fun _ => ⟨rfl, hp⟩
      · exact ⟨rfl, hp⟩
    · split
      · exact fun _ => ⟨rfl, hp⟩
      · exact ⟨rfl, hp⟩
  relations st hst a b q := by cases hst
  attrs st hst e it _ this a := by
    cases List.mem_singleton.1 hst
    intro h; cases h
  defaults d hd := by cases hd

theorem demoFlipped_noStore : demoFlipped.NoStore := by
  refine .of_streams (fun g hg => ?_) (fun st hst e it _ this q => ?_) (fun st hst => ?_)
    (fun st hst e it _ this a => ?_)
  · cases hg
  · cases List.mem_singleton.1 hst
    intro p
    change Prog.NoStore (if p.stat.index = 1 then _ else _)
    split
    · intro o
      change Prog.NoStore (if _ then _ else _)
      split
      · exact fun _ => trivial
      · trivial
    · split
      · exact fun _ => trivial
      · trivial
  · cases hst
  · cases List.mem_singleton.1 hst; trivial

private theorem bind_ne_fuel {α β : Type} {x : Res α} {f : α → Res β} (hx : x ≠ .error .fuel)
    (hf : ∀ a, f a ≠ .error .fuel) : (x >>= f) ≠ .error .fuel := by
  cases x with
  | ok a => exact hf a
  | error e => intro h; exact hx (by cases h; rfl)

theorem demoFlipped_step {n e : Nat} {q : QualifierQuery (BitVec 8)} {s : StatInst demo}
    (h : demoFlipped.world.isStat e = true → ∀ v,
      (demoFlip.stream e e q ⟨s, v⟩).eval (demoFlipped.answer demoAddr n) ≠ .error .fuel) :
    demoFlipped.answer demoAddr (n + 1) (.stat e q s) ≠ .error .fuel := by
  rw [Joined.answer_succ]
  refine bind_ne_fuel (validate_ne_fuel _) fun _ => ?_
  cases he : demoFlipped.world.isStat e with
  | false => intro h; cases h
  | true =>
    refine bind_ne_fuel (startValue_ne_fuel _ _) fun v => bind_ne_fuel ?_ fun p => bind_ne_fuel (Buf.read_ne_fuel _ _)
      fun x h => by cases h
    exact bind_ne_fuel (h he v) fun p h => by cases h

theorem demoFlipped_zero {e : Nat} (he : demoFlipped.world.isStat e = true) (n : Nat) (q : QualifierQuery (BitVec 8)) :
    demoFlipped.answer demoAddr (n + 1) (.stat e q (demoInt 0)) =
      (.ok (some ⟨0, -2147483648, 2147483647, 1⟩) : Res (Option StatInt)) := by
  have : e = 0 ∨ e = 1 := by
    have h : (e == 0 || e == 1) = true := he
    simpa using h
  rcases this with rfl | rfl <;> rfl

theorem demoFlipped_one (n e : Nat) (q : QualifierQuery (BitVec 8)) (s : StatInst demo) (hs : s.index ≠ 2) :
    demoFlipped.answer demoAddr (n + 2) (.stat e q s) ≠ .error .fuel := by
  refine demoFlipped_step fun he v => ?_
  change Prog.eval _ (if s.index = 1 then _ else if s.index = 2 then _ else _) ≠ _
  rw [if_neg hs]
  split
  · change (demoFlipped.answer demoAddr (n + 1) (.stat e q (demoInt 0)) >>= _) ≠ _
    rw [demoFlipped_zero he]
    intro h; cases h
  · intro h; cases h

theorem demoFlipped_ends (m : Nat) (r : Req demo (BitVec 8) Nat) :
    demoFlipped.answer demoAddr (m + 3) r ≠ .error .fuel := by
  cases r with
  | stat e q s =>
    by_cases hs : s.index = 2
    · refine demoFlipped_step fun he v => ?_
      change Prog.eval _ (if s.index = 1 then _ else if s.index = 2 then _ else _) ≠ _
      rw [if_neg (by omega), if_pos hs]
      exact bind_ne_fuel (demoFlipped_one m e q (demoInt 1) (by decide)) fun _ h => by cases h
    · exact demoFlipped_one (m + 1) e q s hs
  | relation a b q s =>
    rw [Joined.answer_succ]
    refine bind_ne_fuel (validate_ne_fuel _) fun _ => ?_
    cases demoFlipped.world.isStat a && demoFlipped.world.isStat b with
    | false => intro h; cases h
    | true =>
      exact bind_ne_fuel (startValue_ne_fuel _ _) fun v => bind_ne_fuel (fun h => by cases h) fun p =>
        bind_ne_fuel (Buf.read_ne_fuel _ _) fun x h => by cases h
  | attr e a =>
    rw [Joined.answer_succ]
    have : demoFlipped.attrCalls e a = [.ret false] := by
      unfold Joined.attrCalls
      split <;> rfl
    change anyCalls _ (demoFlipped.attrCalls e a) ≠ _
    rw [this]
    intro h; cases h

/-- C142: streams that clear the cache in mid-query are excluded for a reason, other than in C93: on a stale cache the
same result may be stored twice without a clear in between, though the stats do not depend on each other in a cycle.
The value stored first leaks (C58). -/
theorem C142_clear_overwrites : ∃ (J J' : Joined demo (BitVec 8) Nat) (evs : List (Event demo (BitVec 8) Nat)),
    (J.Safe demoAddr ∧ J.Quiet) ∧ (J'.Safe demoAddr ∧ J'.NoStore) ∧
    (∀ r, ∃ N, ∀ m ≥ N, J'.answer demoAddr m r ≠ .error .fuel) ∧
    (∀ J'', Event.change J'' ∈ evs → J'' = J') ∧ ¬ NoneTwice [] (historyAccesses demoAddr J [] evs) := by
  refine ⟨demoJoined, demoFlipped, [.query 1 (.stat 0 demoQ (demoInt 0)), .change demoFlipped,
    .query 4 (.stat 0 demoQ (demoInt 1))], ⟨demoJoined_safe, demoJoined_quiet⟩,
    ⟨demoFlipped_safe, demoFlipped_noStore⟩, ?_, ?_, fun h => ?_⟩
  · refine fun r => ⟨3, fun m hm => ?_⟩
    obtain ⟨m, rfl⟩ := Nat.exists_eq_add_of_le' hm
    exact demoFlipped_ends m r
  · intro J'' h
    simpa using h
  · have h' : NoneTwice (E := demo) (K := CacheKey demo (BitVec 8) Nat) [] [.lookup ⟨0, demoQ, demoInt 0⟩, .insert ⟨0, demoQ, demoInt 0⟩,
      .lookup ⟨0, demoQ, demoInt 1⟩, .lookup ⟨0, demoQ, demoInt 0⟩, .clear, .lookup ⟨0, demoQ, demoInt 2⟩,
      .lookup ⟨0, demoQ, demoInt 1⟩, .lookup ⟨0, demoQ, demoInt 0⟩, .insert ⟨0, demoQ, demoInt 0⟩,
      .insert ⟨0, demoQ, demoInt 1⟩, .insert ⟨0, demoQ, demoInt 2⟩, .insert ⟨0, demoQ, demoInt 1⟩] := h
    simp [NoneTwice] at h'

end BSQ
