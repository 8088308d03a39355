import Verif.Spec.WildEq
import Verif.Props.Cache
/-!
# C97: the cache is memory safe whatever the qualifier type's `Eq`, `Hash` and `Clone` do
-/
namespace BSQ
variable {E : Env} {Q Ent : Type} [DecidableEq Q] [DecidableEq Ent] {A : Addr E} {P : Joined E Q Ent → Prop}

omit [DecidableEq Q] [DecidableEq Ent] in
/-- the value depends on the stat of the key only -/
theorem TypedEntry.other {k k' : CacheKey E Q Ent} {b : Buf E} (h : TypedEntry k b) (hk : k.stat = k'.stat) :
    TypedEntry k' b := by
  obtain ⟨e, q, s⟩ := k
  obtain ⟨e', q', s'⟩ := k'
  cases hk
  exact h

omit [DecidableEq Q] [DecidableEq Ent] in
theorem CacheTyped.mayFind {c : Cache E Q Ent} (h : CacheTyped c) {k : CacheKey E Q Ent} {o : Option (Buf E)}
    (ho : c.MayFind k o) (b : Buf E) (hb : o = some b) : TypedEntry k b := by
  rcases ho with rfl | ⟨x, hx, -, hs, rfl⟩
  · cases hb
  · cases hb
    exact TypedEntry.other (h x hx) hs

omit [DecidableEq Q] [DecidableEq Ent] in
theorem CacheTyped.mayBecome {c c' : Cache E Q Ent} (h : CacheTyped c) {k : CacheKey E Q Ent} {b : Buf E}
    (hb : TypedEntry k b) (hc : c.MayBecome k b c') : CacheTyped c' := by
  intro y hy
  rcases hc with hc | ⟨x, r, h1, -, h2, h3⟩
  · rcases List.mem_cons.1 (hc.mem_iff.1 hy) with rfl | hy
    · exact hb
    · exact h y hy
  · rcases List.mem_cons.1 (h3.mem_iff.1 hy) with rfl | hy
    · exact hb.other h2.symm
    · exact h y (h1.mem_iff.2 (List.mem_cons_of_mem _ hy))

omit [DecidableEq Q] [DecidableEq Ent] in
theorem CacheTyped.clears {c : Cache E Q Ent} (h : CacheTyped c) : c.clear = .ok [] := by
  simp [Cache.clear, h.dropAll]

omit [DecidableEq Q] [DecidableEq Ent] in
theorem WildReachable.good {okGet : CacheKey E Q Ent → Option (Buf E) → Prop}
    {R : (n : Nat) → (r : Req E Q Ent) → Res r.Resp → Prop}
    (hcode : ∀ J, P J → ∀ n r, CProg.Good okGet TypedEntry (R n r) (J.handle A n r))
    (hget : ∀ k o, (∀ b, o = some b → TypedEntry k b) → okGet k o) {s : Conf E Q Ent} (h : WildReachable A P s) :
    CacheTyped s.cache ∧ ∀ t ∈ s.threads, CProg.Good okGet TypedEntry (R t.depth t.req) t.code := by
  induction h with
  | init => exact ⟨fun x hx => (by cases hx), fun t ht => (by cases ht)⟩
  | step hP _ hstep ih =>
    obtain ⟨hc, ht⟩ := ih
    cases hstep with
    | start c ts n r =>
      refine ⟨hc, fun t h => ?_⟩
      rcases List.mem_append.1 h with h | h
      · exact ht t h
      · cases List.mem_singleton.1 h
        exact hcode _ hP n r
    | get c ts i n r k f o hi ho =>
      refine ⟨hc, fun t h => ?_⟩
      rcases List.mem_or_eq_of_mem_set h with h | rfl
      · exact ht t h
      · exact ht _ (List.mem_of_getElem? hi) _ (hget k o (hc.mayFind ho))
    | put c c' ts i n r k b f hi hb =>
      have hp := ht _ (List.mem_of_getElem? hi)
      refine ⟨hc.mayBecome hp.1 hb, fun t h => ?_⟩
      rcases List.mem_or_eq_of_mem_set h with h | rfl
      · exact ht t h
      · exact hp.2
    | clear c c' ts h =>
      rw [CacheTyped.clears hc] at h
      cases h
      exact ⟨fun x hx => (by cases hx), ht⟩
    | wipe c c' ts i n r f hi h =>
      rw [CacheTyped.clears hc] at h
      cases h
      refine ⟨fun x hx => (by cases hx), fun t h => ?_⟩
      rcases List.mem_or_eq_of_mem_set h with h | rfl
      · exact ht t h
      · exact (show CProg.Good okGet TypedEntry (R n r) (.clear f) from ht _ (List.mem_of_getElem? hi))
    | wipeFail c e ts i n r f hi h =>
      rw [CacheTyped.clears hc] at h
      cases h

omit [DecidableEq Q] [DecidableEq Ent] in
/-- C97: whatever the streams and the comparisons do, each cached value has the type of the stat it is stored under,
so `clear` and the drop of the cache drop each as what it is -/
theorem C97_typed {s : Conf E Q Ent} (h : WildReachable A P s) :
    CacheTyped s.cache ∧ s.cache.clear = .ok [] ∧ s.cache.dropAll = .ok () := by
  have := (h.good (R := fun _ _ _ => True) (okGet := fun _ _ => True) (fun J _ n r => J.putsTyped A n r)
    (fun _ _ _ => trivial)).1
  exact ⟨this, this.clears, CacheTyped.dropAll this⟩

omit [DecidableEq Q] [DecidableEq Ent] in
/-- C97: with streams that do not break the pairs themselves no query runs into undefined behaviour, in any number
of threads, with clears, and with any changes of the world in between -/
theorem C97_no_ub (hP : ∀ J, P J → J.Safe A) {s : Conf E Q Ent} (h : WildReachable A P s) :
    ∀ t ∈ s.threads, t.code ≠ .fail .ub := by
  intro t ht hcode
  have := (h.good (R := fun _ _ => ErrIn (· ≠ .ub)) (okGet := fun k o => ∀ b, o = some b → TypedEntry k b)
    (fun J hJ n r => (hP J hJ).typedCode (fun _ b h => h b rfl) (fun _ _ _ h => h) (.inl fun _ _ h => h) n r)
    (fun _ _ h => h)).2 t ht
  rw [hcode] at this
  exact this rfl

/-! ### right comparisons are among them -/

theorem Cache.mayFind_get (c : Cache E Q Ent) (k : CacheKey E Q Ent) :
    c.MayFind k (HMap.get (CacheKey.eq A) c k) := by
  cases h : HMap.get (CacheKey.eq A) c k with
  | none => exact .inl rfl
  | some b => exact .inr ⟨(k, b), HMap.mem_of_get (CacheKey.eq_iff A) h, rfl, rfl, rfl⟩

theorem HMap.get_none_iff {K B : Type} {eq : K → K → Bool} (heq : ∀ a b, eq a b = true ↔ a = b) (m : HMap K B)
    (k : K) : HMap.get eq m k = none ↔ k ∉ m.map Prod.fst := by
  induction m with
  | nil => simp [HMap.get_nil]
  | cons x m ih =>
    rw [HMap.get_cons]
    by_cases h : x.1 = k
    · subst h
      simp [heq]
    · have e : eq x.1 k = false := by rw [← Bool.not_eq_true, heq]; exact h
      have h' : k ≠ x.1 := fun h' => h h'.symm
      simp [e, ih, h']

theorem HMap.set_absent {K B : Type} {eq : K → K → Bool} (heq : ∀ a b, eq a b = true ↔ a = b) {m : HMap K B}
    {k : K} (h : k ∉ m.map Prod.fst) (b : B) : HMap.set eq m k b = m := by
  induction m with
  | nil => rfl
  | cons x m ih =>
    simp only [List.map_cons, List.mem_cons, not_or] at h
    have e : eq x.1 k = false := by rw [← Bool.not_eq_true, heq]; exact fun h' => h.1 h'.symm
    have := ih h.2
    unfold HMap.set at this ⊢
    rw [List.map_cons, this]
    simp [e]

theorem HMap.keys_insert {K B : Type} {eq : K → K → Bool} (heq : ∀ a b, eq a b = true ↔ a = b) {m : HMap K B}
    (h : (m.map Prod.fst).Nodup) (k : K) (b : B) : ((HMap.insert eq m k b).1.map Prod.fst).Nodup := by
  unfold HMap.insert
  cases hg : HMap.get eq m k with
  | none =>
    have := (HMap.get_none_iff heq m k).1 hg
    simp only [List.map_append, List.map_cons, List.map_nil]
    rw [List.nodup_append]
    refine ⟨h, by simp, fun a ha c hc => ?_⟩
    cases List.mem_singleton.1 hc
    rintro rfl
    exact this ha
  | some old =>
    have e : (HMap.set eq m k b).map Prod.fst = m.map Prod.fst := by
      unfold HMap.set
      rw [List.map_map]
      apply List.map_congr_left
      intro x _
      by_cases hx : eq x.1 k = true <;> simp [hx]
    simpa only [e] using h

theorem Cache.mayBecome_insert {c : Cache E Q Ent} (h : (c.map Prod.fst).Nodup) (k : CacheKey E Q Ent) (b : Buf E) :
    c.MayBecome k b (HMap.insert (CacheKey.eq A) c k b).1 := by
  have heq := CacheKey.eq_iff (Q := Q) (Ent := Ent) A
  unfold HMap.insert
  cases hg : HMap.get (CacheKey.eq A) c k with
  | none => exact .inl (List.perm_append_comm (l₁ := c) (l₂ := [(k, b)]))
  | some old =>
    refine .inr ⟨(k, old), ?_⟩
    obtain ⟨l, r, rfl⟩ := List.append_of_mem (HMap.mem_of_get heq hg)
    refine ⟨l ++ r, List.perm_middle, rfl, rfl, ?_⟩
    have hs : HMap.set (CacheKey.eq A) (l ++ (k, old) :: r) k b = l ++ (k, b) :: r := by
      have h' := h
      simp only [List.map_append, List.map_cons] at h'
      rw [List.nodup_middle, List.nodup_cons, List.mem_append, not_or] at h'
      have h1 := HMap.set_absent heq h'.1.1 b
      have h2 := HMap.set_absent heq h'.1.2 b
      unfold HMap.set at h1 h2 ⊢
      rw [List.map_append, List.map_cons, h1, h2]
      simp [(heq k k).2 rfl]
    simp only [hs]
    exact List.perm_middle

/-- C97: with right comparisons the executions of C50 are among these -/
theorem C97_right_among {J : Joined E Q Ent} (hJ : P J) {s : Conf E Q Ent} (h : Reachable A J s) :
    WildReachable A P s := by
  suffices h' : (s.cache.map Prod.fst).Nodup ∧ WildReachable A P s from h'.2
  induction h with
  | init => exact ⟨List.nodup_nil, .init⟩
  | step _ hstep ih =>
    obtain ⟨hn, ih⟩ := ih
    cases hstep with
    | start c ts n r => exact ⟨hn, .step hJ ih (.start c ts n r)⟩
    | get c ts i n r k f hi => exact ⟨hn, .step hJ ih (.get c ts i n r k f _ hi (c.mayFind_get k))⟩
    | put c ts i n r k b f hi =>
      exact ⟨HMap.keys_insert (CacheKey.eq_iff A) hn k b,
        .step hJ ih (.put c _ ts i n r k b f hi (Cache.mayBecome_insert hn k b))⟩
    | clear c c' ts h =>
      refine ⟨?_, .step hJ ih (.clear c c' ts h)⟩
      obtain ⟨_, -, h⟩ := Res.bind_eq_ok.1 h
      cases h
      exact List.nodup_nil
    | wipe c c' ts i n r f hi h =>
      refine ⟨?_, .step hJ ih (.wipe c c' ts i n r f hi h)⟩
      obtain ⟨_, -, h⟩ := Res.bind_eq_ok.1 h
      cases h
      exact List.nodup_nil
    | wipeFail c e ts i n r f hi h => exact ⟨hn, .step hJ ih (.wipeFail c e ts i n r f hi h)⟩

/-! ### a lookup that finds the value of another query -/

/-- a component that adds the bits of the query -/
def demoBits : CStream demo (BitVec 8) Nat where
  Item := Nat
  query e := some e
  stream _ _ q := demoAdd (match q with | .aggregate b => b.toNat | .exact _ b => b.toNat)

/-- with that component alone -/
def demoBitsJoined : Joined demo (BitVec 8) Nat := ({ demoWorld with relations := none }).withComponent demoBits

theorem demoBitsJoined_safe : demoBitsJoined.Safe demoAddr where
  globals g hg e q := by cases hg
  streams st hst e it _ this q := by
    cases List.mem_singleton.1 (show st ∈ [demoBits] from hst)
    exact demoAdd_safe _
  relations st hst a b q := by cases hst
  attrs st hst e it _ this a := by
    cases List.mem_singleton.1 (show st ∈ [demoBits] from hst)
    intro h
    cases h
  defaults d hd := by cases hd

/-- C97: with an `Eq` that calls all queries equal, a query for the flag 2 returns what was computed for the flag 1:
results are wrong then, but of the right type -/
theorem C97_confused : ∃ (s : Conf demo (BitVec 8) Nat) (t : Thread demo (BitVec 8) Nat),
    WildReachable demoAddr (· = demoBitsJoined) s ∧ t ∈ s.threads ∧
    t = ⟨1, .stat 0 (.aggregate 2) (demoInt 0), .ret (some ⟨1, -2147483648, 2147483647, 1⟩ : Option StatInt)⟩ ∧
    demoBitsJoined.answer demoAddr 1 (.stat 0 (.aggregate 2) (demoInt 0)) =
      (.ok (some ⟨2, -2147483648, 2147483647, 1⟩) : Res (Option StatInt)) := by
  let k : BitVec 8 → CacheKey demo (BitVec 8) Nat := fun b => ⟨0, .aggregate b, demoInt 0⟩
  let r : BitVec 8 → Req demo (BitVec 8) Nat := fun b => .stat 0 (.aggregate b) (demoInt 0)
  let v : Int → StatInt := fun n => ⟨n, -2147483648, 2147483647, 1⟩
  have step : ∀ {a b}, WildReachable demoAddr (· = demoBitsJoined) a → WildStep demoAddr demoBitsJoined a b →
      WildReachable demoAddr (· = demoBitsJoined) b := fun h => .step rfl h
  have h1 := step .init (.start [] [] 1 (r 1))
  have h2 := step h1 (.get _ _ 0 1 (r 1) (k 1) _ none rfl (.inl rfl))
  have h3 := step h2 (.put _ [(k 1, .val true (v 1))] _ 0 1 (r 1) (k 1) (.val true (v 1)) (.ret (some (v 1))) rfl
    (.inl (List.Perm.refl _)))
  have h4 := step h3 (.start _ _ 1 (r 2))
  have h5 := step h4 (.get _ _ 1 1 (r 2) (k 2) _ (some (.val true (v 1))) rfl
    (.inr ⟨_, List.mem_cons_self, rfl, rfl, rfl⟩))
  exact ⟨_, _, h5, List.mem_cons_of_mem _ List.mem_cons_self, rfl, rfl⟩

/-- the theorems about such runs -/
example : ∀ s, WildReachable demoAddr (· = demoBitsJoined) s → ∀ t ∈ s.threads, t.code ≠ .fail .ub :=
  fun _ h => C97_no_ub (by rintro J rfl; exact demoBitsJoined_safe) h

end BSQ
