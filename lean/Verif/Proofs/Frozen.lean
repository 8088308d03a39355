import Verif.Spec.Frozen
import Verif.Proofs.CacheTrace
/-! # Queries on a cache that holds whatever results -/
namespace BSQ
set_option linter.unusedSectionVars false
variable {E : Env} {Q Ent α β : Type} {A : Addr E} {J : Joined E Q Ent}
  {f : (k : CacheKey E Q Ent) → Option k.stat.Val}

theorem Joined.fixed_held {e : Ent} {q : QualifierQuery Q} {s : StatInst E} (he : J.world.isStat e = true) {v : s.Val}
    (hf : f ⟨e, q, s⟩ = some v) (n : Nat) : J.fixed A f (n + 1) (.stat e q s) = .ok (some v) := by
  simp only [Joined.fixed, he, if_true, hf]

theorem Joined.fixed_open {e : Ent} {q : QualifierQuery Q} {s : StatInst E}
    (h : J.world.isStat e = true → f ⟨e, q, s⟩ = none) (n : Nat) :
    J.fixed A f (n + 1) (.stat e q s) = J.ideal A (J.fixed A f n) (.stat e q s) := by
  cases he : J.world.isStat e with
  | false => simp only [Joined.fixed, he]; rfl
  | true => simp only [Joined.fixed, he, if_true, h he]

theorem Joined.fixed_le {n m : Nat} (hnm : n ≤ m) (r : Req E Q Ent) : Res.Le (J.fixed A f n r) (J.fixed A f m r) := by
  induction n generalizing m r with
  | zero => intro h; exact absurd rfl h
  | succ n ih =>
    obtain ⟨m, rfl⟩ : ∃ k, m = k + 1 := ⟨m - 1, by omega⟩
    have hi := fun r => J.ideal_le A (fun r => ih (m := m) (by omega) r) r
    cases r with
    | stat e q s =>
      by_cases h : J.world.isStat e = true → f ⟨e, q, s⟩ = none
      · rw [J.fixed_open h, J.fixed_open h]
        exact hi _
      · push Not at h
        obtain ⟨he, h⟩ := h
        obtain ⟨v, hv⟩ := Option.ne_none_iff_exists'.1 h
        rw [J.fixed_held he hv, J.fixed_held he hv]
        exact .refl _
    | relation a b q s => exact hi _
    | attr e a => exact hi _

theorem Joined.fixed_unique {n m : Nat} {r : Req E Q Ent} (hn : J.fixed A f n r ≠ .error .fuel)
    (hm : J.fixed A f m r ≠ .error .fuel) : J.fixed A f n r = J.fixed A f m r := by
  rw [← J.fixed_le (Nat.le_max_left n m) r hn, ← J.fixed_le (Nat.le_max_right n m) r hm]

theorem fixed_mono (r : Req E Q Ent) : DepthMono (fun n => J.fixed A f n r) := fun _ _ h => J.fixed_le h r

/-- the result is the one of the family -/
def FixedEntry (A : Addr E) (J : Joined E Q Ent) (f : (k : CacheKey E Q Ent) → Option k.stat.Val)
    (k : CacheKey E Q Ent) (b : Buf E) : Prop :=
  ∃ v : k.stat.Val, b = .val k.stat.ty v ∧ Storable (E.layout k.stat.ty) ∧
    ∃ m, J.fixed A f m (.stat k.entity k.query k.stat) = .ok (some v)

/-- allowed answers of the cache -/
def FixedGet (A : Addr E) (J : Joined E Q Ent) (f : (k : CacheKey E Q Ent) → Option k.stat.Val)
    (k : CacheKey E Q Ent) (o : Option (Buf E)) : Prop :=
  J.world.isStat k.entity = true → (o = none → f k = none) ∧ ∀ b, o = some b → FixedEntry A J f k b

/-- what may be stored -/
def FixedPut (A : Addr E) (J : Joined E Q Ent) (f : (k : CacheKey E Q Ent) → Option k.stat.Val)
    (k : CacheKey E Q Ent) (b : Buf E) : Prop := FixedEntry A J f k b ∧ f k = none

/-- the family for a stat request on a `StatEntity` whose result is not given, after validation -/
def Joined.fixedBody (A : Addr E) (J : Joined E Q Ent) (f : (k : CacheKey E Q Ent) → Option k.stat.Val) (e : Ent)
    (q : QualifierQuery Q) (s : StatInst E) (m : Nat) : Res (Option s.Val) :=
  (J.world.startValue A s >>= fun v => runCalls (J.fixed A f m) (J.statCalls e q) ⟨s, v⟩) >>= fun p =>
    p.value.read s.ty >>= fun x => .ok (some x)

theorem Joined.fixed_body {e : Ent} {q : QualifierQuery Q} {s : StatInst E} (hs : Storable (E.layout s.ty))
    (he : J.world.isStat e = true) (hf : f ⟨e, q, s⟩ = none) (m : Nat) :
    J.fixed A f (m + 1) (.stat e q s) = J.fixedBody A f e q s m := by
  rw [J.fixed_open fun _ => hf]
  simp only [Joined.ideal, validate_eq, hs, if_true, he, Res.bind_ok, Joined.fixedBody]
  cases J.world.startValue A s <;> rfl

theorem CallsOk.of_noStore {okPut : CacheKey E Q Ent → Buf E → Prop} {o : Nat → Oracle E Q Ent}
    {l : List (Call E Q Ent)} (hl : ∀ c ∈ l, ∀ p, (c p).NoStore) (p : Pair E) : CallsOk okPut o l p := by
  induction l generalizing p with
  | nil => trivial
  | cons c l ih =>
    exact ⟨(hl c List.mem_cons_self p).storesOk, fun m p' _ => ih (fun c hc => hl c (List.mem_cons_of_mem _ hc)) p'⟩

theorem Joined.Safe.fixed_miss (hJ : J.Safe A) (hn : J.NoStore) {n : Nat} {h : Handler E Q Ent}
    (hh : ∀ r, CProg.Good (FixedGet A J f) (FixedPut A J f) (Faith (fun m => J.fixed A f m r) n) (h r))
    {e : Ent} (q : QualifierQuery Q) {s : StatInst E} (hs : Storable (E.layout s.ty))
    (he : J.world.isStat e = true) (hf : f ⟨e, q, s⟩ = none) :
    CProg.Good (FixedGet A J f) (FixedPut A J f) (Faith (J.fixedBody A f e q s) n)
      ((J.miss A h e q s).bind fun o => CProg.lift (StatMap.readAs s o)) := by
  unfold Joined.miss
  simp only [CProg.bind_eq, CProg.bind_assoc]
  have hmono : DepthMono (fun m => J.world.startValue A s >>= fun v =>
      runCalls (J.fixed A f m) (J.statCalls e q) ⟨s, v⟩) :=
    DepthMono.bind (DepthMono.const _) (fun v => DepthMono.calls fixed_mono _ _)
  refine Faith.bind (X := fun m => J.world.startValue A s >>= fun v =>
      runCalls (J.fixed A f m) (J.statCalls e q) ⟨s, v⟩)
    (F := fun _ p => p.value.read s.ty >>= fun x => .ok (some x)) ?_ hmono (fun _ => DepthMono.const _) ?_
  · rw [J.compute_eq]
    exact Faith.bind (X := fun _ => J.world.startValue A s) (Faith.const n _) (DepthMono.const _)
      (fun v => DepthMono.calls fixed_mono _ _)
      (fun v hv => Faith.calls fixed_mono hh _ _ (.of_noStore (hn.stat e q) _))
  · rintro p ⟨m, hm⟩
    obtain ⟨v, rfl⟩ := hJ.computed hs hm
    rw [Joined.remember_eq hs]
    cases hc : J.world.cached with
    | false =>
      simp only [Bool.false_eq_true, if_false, CProg.bind_ret]
      exact Faith.const n _
    | true =>
      simp only [if_true, CProg.bind_put, CProg.bind_ret]
      refine ⟨⟨⟨v, rfl, hs, m + 1, ?_⟩, hf⟩, Faith.const n _⟩
      change J.fixed A f (m + 1) (.stat e q s) = _
      rw [Joined.fixed_body hs he hf, Joined.fixedBody, hm, Res.bind_ok]
      change (Buf.read s.ty (.val s.ty v) >>= _) = _
      rw [Buf.read_val hs]; rfl

theorem Joined.Safe.fixed_good (hJ : J.Safe A) (hn : J.NoStore) (hc : J.world.cached = true)
    (hst : ∀ k, f k ≠ none → Storable (E.layout k.stat.ty)) (n : Nat) (r : Req E Q Ent) :
    CProg.Good (FixedGet A J f) (FixedPut A J f) (Faith (fun m => J.fixed A f m r) n) (J.handle A n r) := by
  induction n generalizing r with
  | zero => exact ⟨fun h => absurd rfl h, fun h => absurd rfl h⟩
  | succ n ih =>
    refine CProg.Good.mono (P := Faith (fun m => J.fixed A f (m + 1) r) n) ?_ (fun _ h => h.shift)
    cases r with
    | stat e q s =>
      change CProg.Good _ _ _ ((CProg.lift _).bind fun _ => _)
      by_cases hs : Storable (E.layout s.ty)
      swap
      · have hf : f ⟨e, q, s⟩ = none := by
          by_contra h
          exact hs (hst ⟨e, q, s⟩ h)
        simp only [J.fixed_open fun _ => hf, Joined.ideal, validate_eq, if_neg hs]
        exact Faith.self (fun _ => .error .panic) n
      simp only [validate_eq, if_pos hs, CProg.lift_ok, CProg.bind_ret]
      unfold Joined.queryStatErased
      cases he : J.world.isStat e with
      | false =>
        simp only [J.fixed_open (f := f) (q := q) (s := s) (fun h => by rw [he] at h; cases h), Joined.ideal, validate_eq,
          if_pos hs, he]
        exact Faith.self (fun _ => .ok none) n
      | true =>
        simp only [if_true, CProg.bind_eq, CProg.bind_assoc]
        unfold Joined.lookup
        simp only [hc, if_true, CProg.bind_get]
        intro o ho
        obtain ⟨h1, h2⟩ := ho he
        cases o with
        | none =>
          simp only [Defaults.cloned, CProg.lift_ok, CProg.bind_ret, Joined.fixed_body hs he (h1 rfl)]
          exact hJ.fixed_miss hn ih q hs he (h1 rfl)
        | some b =>
          obtain ⟨v, rfl, -, m, hm⟩ := h2 b rfl
          change J.fixed A f m (.stat e q s) = _ at hm
          change s.Val at v
          have hcl : Defaults.cloned s (some (.val s.ty v)) = .ok (some (.val s.ty v)) := by
            simp [Defaults.cloned, vtClone_val hs]
          simp only [hcl, CProg.lift_ok, CProg.bind_ret, readAs_val hs]
          refine ⟨fun hne => ?_, fun _ => ?_⟩
          · refine Eq.trans ?_ (J.fixed_unique (m := m) hne (by rw [hm]; simp)).symm
            exact hm.symm
          · cases m with
            | zero => cases hm
            | succ m => exact ⟨m, hm⟩
    | relation a b q s =>
      change CProg.Good _ _ (Faith (fun m => validate (E.layout s.ty) >>= fun _ => _) n)
        ((CProg.lift _).bind fun _ => _)
      refine Faith.bind (X := fun _ => validate (E.layout s.ty))
        (F := fun m _ => if J.world.isStat a && J.world.isStat b then _ else _)
        (Faith.const n _) (DepthMono.const _) ?_ ?_
      · intro _
        cases J.world.isStat a && J.world.isStat b with
        | false => exact DepthMono.const _
        | true => exact DepthMono.bind (DepthMono.const _) (fun v => DepthMono.bind
            (DepthMono.calls fixed_mono _ _) (fun _ => DepthMono.const _))
      · rintro _ _
        rw [J.queryRelationErased_eq]
        cases he : J.world.isStat a && J.world.isStat b with
        | false => exact Faith.self (fun _ => .ok none) n
        | true =>
          simp only [if_true, CProg.bind_eq, CProg.bind_assoc, CProg.bind_ret]
          exact Faith.bind (X := fun _ => J.world.startValue A s) (Faith.const n _) (DepthMono.const _)
            (fun v => DepthMono.bind (DepthMono.calls fixed_mono _ _) (fun _ => DepthMono.const _))
            (fun v hv => Faith.bind (X := fun m => runCalls (J.fixed A f m) (J.relationCalls a b q) ⟨s, v⟩)
              (Faith.calls fixed_mono ih _ _ (.of_noStore (hn.relation a b q) _)) (DepthMono.calls fixed_mono _ _)
              (fun _ => DepthMono.const _) (fun p _ => Faith.const n _))
    | attr e a =>
      change CProg.Good _ _ (Faith (fun m => anyCalls (J.fixed A f m) _) n) (J.hasAttributeErased _ e a)
      rw [J.hasAttributeErased_eq]
      exact Faith.any fixed_mono ih _ (fun c hc => (hn.attr e a c hc).storesOk)

/-! ### the cache afterwards -/

section
variable [DecidableEq Q] [DecidableEq Ent]

/-- the cache holds what is given, and otherwise what the family comes to -/
def FixedCache (A : Addr E) (J : Joined E Q Ent) (f : (k : CacheKey E Q Ent) → Option k.stat.Val)
    (c : Cache E Q Ent) : Prop :=
  ∀ k, (HMap.get (CacheKey.eq A) c k = none → f k = none) ∧
    ∀ b, HMap.get (CacheKey.eq A) c k = some b →
      (J.world.isStat k.entity = true ∨ f k = none → FixedEntry A J f k b) ∧ ∀ v, f k = some v → b = .val k.stat.ty v

theorem FixedCache.start {c : Cache E Q Ent} (hf : c.Holds A f) (hst : ∀ k, f k ≠ none → Storable (E.layout k.stat.ty)) :
    FixedCache A J f c := by
  intro k
  have hk := hf k
  cases h : f k with
  | none => rw [h] at hk; exact ⟨fun _ => rfl, fun b hb => by rw [hk] at hb; cases hb⟩
  | some v =>
    rw [h] at hk
    refine ⟨fun hb => (by rw [hk] at hb; cases hb), fun b hb => ?_⟩
    rw [hk] at hb
    cases hb
    refine ⟨fun he => ⟨v, rfl, hst k (by rw [h]; simp), 1, ?_⟩, fun w hw => by cases hw; rfl⟩
    rcases he with he | he
    · exact J.fixed_held he h 0
    · cases he

theorem FixedCache.get {c : Cache E Q Ent} (h : FixedCache A J f c) (k : CacheKey E Q Ent) :
    FixedGet A J f k (HMap.get (CacheKey.eq A) c k) :=
  fun he => ⟨(h k).1, fun b hb => ((h k).2 b hb).1 (.inl he)⟩

theorem FixedCache.insert {c : Cache E Q Ent} (h : FixedCache A J f c) {k : CacheKey E Q Ent} {b : Buf E}
    (hb : FixedPut A J f k b) : FixedCache A J f (HMap.insert (CacheKey.eq A) c k b).1 := by
  intro k'
  rw [HMap.get_insert (CacheKey.eq_iff A)]
  by_cases hk : k = k'
  · subst hk
    rw [if_pos rfl]
    refine ⟨fun h => (by cases h), fun b' hb' => ?_⟩
    cases hb'
    exact ⟨fun _ => hb.1, fun v hv => by rw [hb.2] at hv; cases hv⟩
  · rw [if_neg hk]
    exact h k'

theorem Joined.Safe.fixed_run (hJ : J.Safe A) (hq : J.Quiet) (hc : J.world.cached = true)
    (hst : ∀ k, f k ≠ none → Storable (E.layout k.stat.ty)) {c : Cache E Q Ent} (h : FixedCache A J f c) (n : Nat)
    (r : Req E Q Ent) : Faith (fun m => J.fixed A f m r) n ((J.handle A n r).run A c).1 ∧
      FixedCache A J f ((J.handle A n r).run A c).2 :=
  (hJ.fixed_good hq.noStore hc hst n r).run_noClear (FixedCache A J f) (fun _ h k => h.get k)
    (fun _ _ _ h hb => h.insert hb) (hq.noClear A n r) h

/-! ### nothing is stored under a key in use -/

/-- the query for the key ends within depth `m` -/
def FixedWithin (A : Addr E) (J : Joined E Q Ent) (f : (k : CacheKey E Q Ent) → Option k.stat.Val) (m : Nat)
    (k : CacheKey E Q Ent) : Prop := J.fixed A f m (.stat k.entity k.query k.stat) ≠ .error .fuel

theorem Joined.Safe.fixed_within (hJ : J.Safe A) (hn : J.NoStore) (hc : J.world.cached = true)
    (hst : ∀ k, f k ≠ none → Storable (E.layout k.stat.ty)) (m : Nat) : ∀ (n : Nat) (r : Req E Q Ent),
    J.fixed A f m r ≠ .error .fuel →
    CProg.Good (FixedGet A J f) (fun k b => FixedPut A J f k b ∧ FixedWithin A J f m k) (OkOnly (J.fixed A f m r))
      (J.handle A n r) := by
  induction m with
  | zero => exact fun _ _ h => absurd rfl h
  | succ m ih =>
    intro n r hr
    have hfaith := hJ.fixed_good (f := f) hn hc hst n r
    refine CProg.Good.mono (CProg.Good.and (okPut' := fun k _ => FixedWithin A J f (m + 1) k) (P' := fun _ => True)
      hfaith ?_) ?_
    · cases n with
      | zero => trivial
      | succ n =>
        have hh : ∀ r, J.fixed A f m r ≠ .error .fuel → CProg.Good (FixedGet A J f)
            (fun k _ => FixedWithin A J f (m + 1) k) (OkOnly (J.fixed A f m r)) (J.handle A n r) := fun r hr =>
          (ih n r hr).puts fun k _ h => by
            unfold FixedWithin
            rw [J.fixed_le (Nat.le_succ m) _ h.2]
            exact h.2
        cases r with
        | stat e q s =>
          change CProg.Good _ _ _ ((CProg.lift _).bind fun _ => _)
          refine (CProg.Good.lift (P := fun r => r = validate (E.layout s.ty)) rfl).bind (fun _ hv => ?_)
            (fun _ _ => trivial)
          have hs : Storable (E.layout s.ty) := by
            rw [validate_eq] at hv
            by_contra hs
            simp [hs] at hv
          refine CProg.Good.bind (P := fun _ => True) ?_ (fun _ _ => CProg.Good.lift trivial) (fun _ _ => trivial)
          unfold Joined.queryStatErased
          cases he : J.world.isStat e with
          | false => trivial
          | true =>
            simp only [if_true]
            have hmiss : f ⟨e, q, s⟩ = none → CProg.Good (FixedGet A J f) (fun k _ => FixedWithin A J f (m + 1) k)
                (fun _ => True) (J.miss A (J.handle A n) e q s) := by
              intro hf
              obtain ⟨v0, hv0⟩ := hJ.startValue s hs
              have hr' := hr
              rw [Joined.fixed_body hs he hf, Joined.fixedBody, hv0, Res.bind_ok] at hr'
              have hne : runCalls (J.fixed A f m) (J.statCalls e q) ⟨s, .val s.ty v0⟩ ≠ .error .fuel := by
                intro h; rw [h] at hr'; exact hr' rfl
              unfold Joined.miss
              simp only [CProg.bind_eq, J.compute_eq, hv0, CProg.lift_ok, CProg.bind_ret]
              refine (callsCode_within hh _ (hn.stat e q) _ hne).bind (fun p hp => ?_) (fun _ _ => trivial)
              obtain ⟨v, rfl⟩ := hJ.computed hs (p := p) (by rw [hv0, Res.bind_ok]; exact hp (by simp))
              rw [Joined.remember_eq hs, hc]
              exact ⟨hr, trivial⟩
            unfold Joined.lookup
            simp only [hc, if_true, CProg.bind_eq, CProg.bind_get]
            intro o ho
            cases o with
            | none => exact hmiss ((ho he).1 rfl)
            | some b =>
              obtain ⟨v, rfl, -⟩ := (ho he).2 b rfl
              change s.Val at v
              have hcl : Defaults.cloned s (some (.val s.ty v)) = .ok (some (.val s.ty v)) := by
                simp [Defaults.cloned, vtClone_val hs]
              simp only [hcl, CProg.lift_ok, CProg.bind_ret]
              trivial
        | relation a b q s =>
          change CProg.Good _ _ _ ((CProg.lift _).bind fun _ => _)
          refine (CProg.Good.lift (P := fun r => r = validate (E.layout s.ty)) rfl).bind (fun _ hv => ?_)
            (fun _ _ => trivial)
          refine CProg.Good.bind (P := fun _ => True) ?_ (fun _ _ => CProg.Good.lift trivial) (fun _ _ => trivial)
          rw [J.queryRelationErased_eq]
          simp only [Joined.fixed, Joined.ideal, ← hv, Res.bind_ok] at hr
          cases he : J.world.isStat a && J.world.isStat b with
          | false => trivial
          | true =>
            rw [he] at hr
            simp only [if_true] at hr ⊢
            refine (CProg.Good.lift (P := fun r => r = J.world.startValue A s) rfl).bind (fun v hv => ?_)
              (fun _ _ => trivial)
            rw [← hv, Res.bind_ok] at hr
            have hne : runCalls (J.fixed A f m) (J.relationCalls a b q) ⟨s, v⟩ ≠ .error .fuel := by
              intro h; rw [h] at hr; exact hr rfl
            exact (callsCode_within hh _ (hn.relation a b q) _ hne).bind (fun p _ => trivial) (fun _ _ => trivial)
        | attr e a =>
          change CProg.Good _ _ _ (J.hasAttributeErased _ e a)
          rw [J.hasAttributeErased_eq]
          exact (anyCode_within hh _ (hn.attr e a) hr).mono (fun _ _ => trivial)
    · rintro res ⟨hf, -⟩ hne
      obtain ⟨m', hm'⟩ := hf.2 hne
      change J.fixed A f m' r = _ at hm'
      rw [← hm']
      exact J.fixed_unique hr (by rw [hm']; exact hne)

/-- while a stat is assembled, it is not stored by anybody the code asks -/
theorem Joined.Safe.fixed_ne (hJ : J.Safe A) (hn : J.NoStore) (hc : J.world.cached = true)
    (hst : ∀ k, f k ≠ none → Storable (E.layout k.stat.ty)) (n : Nat) {e : Ent} (q : QualifierQuery Q)
    {s : StatInst E} (hs : Storable (E.layout s.ty)) (he : J.world.isStat e = true) (hf : f ⟨e, q, s⟩ = none) :
    CProg.Good (FixedGet A J f) (fun k b => FixedPut A J f k b ∧ k ≠ ⟨e, q, s⟩) (fun _ => True)
      (J.compute A (J.handle A n) e q s) := by
  classical
  obtain ⟨v0, hv0⟩ := hJ.startValue s hs
  simp only [J.compute_eq, hv0, CProg.lift_ok, CProg.bind_ret]
  by_cases h : ∃ m, J.fixed A f m (.stat e q s) ≠ .error .fuel
  · obtain ⟨m, hm⟩ : ∃ m, Nat.find h = m + 1 := by
      cases hf : Nat.find h with
      | zero =>
        have := Nat.find_spec h
        rw [hf] at this
        exact absurd rfl this
      | succ m => exact ⟨m, rfl⟩
    have hr := Nat.find_spec h
    rw [hm, Joined.fixed_body hs he hf, Joined.fixedBody, hv0, Res.bind_ok] at hr
    have hne : runCalls (J.fixed A f m) (J.statCalls e q) ⟨s, .val s.ty v0⟩ ≠ .error .fuel := by
      intro h; rw [h] at hr; exact hr rfl
    refine ((callsCode_within (hJ.fixed_within hn hc hst m n) _ (hn.stat e q) _ hne).puts ?_).mono (fun _ _ => trivial)
    rintro k b ⟨hk, hw⟩
    refine ⟨hk, ?_⟩
    rintro rfl
    exact Nat.find_min h (m := m) (by omega) hw
  · refine ((Faith.calls (o := fun m => J.fixed A f m) fixed_mono (fun r => hJ.fixed_good hn hc hst n r) _ _
      (.of_noStore (hn.stat e q) _)).puts ?_).mono (fun _ _ => trivial)
    intro k b hk
    refine ⟨hk, ?_⟩
    rintro rfl
    obtain ⟨⟨v, -, -, m, hm⟩, -⟩ := hk
    exact h ⟨m, by rw [hm]; simp⟩

/-- the run stores only under keys not in use, from any cache with the invariant, which it keeps -/
def CProg.FreshInv (A : Addr E) (Inv : Cache E Q Ent → Prop) (x : CProg E Q Ent α) : Prop :=
  ∀ c, Inv c → x.Fresh A c ∧ Inv (x.run A c).2

section
variable {Inv : Cache E Q Ent → Prop}

theorem CProg.FreshInv.lift (r : Res α) : (CProg.lift r : CProg E Q Ent α).FreshInv A Inv :=
  fun c hc => ⟨.lift r c, by rw [CProg.run_lift]; exact hc⟩

theorem CProg.FreshInv.bind {x : CProg E Q Ent α} {g : α → CProg E Q Ent β} (hx : x.FreshInv A Inv)
    (hg : ∀ a, (g a).FreshInv A Inv) : (x.bind g).FreshInv A Inv := by
  intro c hc
  obtain ⟨h1, h2⟩ := hx c hc
  refine ⟨h1.bind fun a _ => (hg a _ h2).1, ?_⟩
  rw [CProg.run_bind]
  revert h2
  rcases x.run A c with ⟨a | a, c'⟩
  · exact fun h => h
  · exact fun h => (hg a c' h).2

theorem CProg.FreshInv.attempt {x : CProg E Q Ent α} (hx : x.FreshInv A Inv) : x.attempt.FreshInv A Inv := by
  intro c hc
  obtain ⟨h1, h2⟩ := hx c hc
  refine ⟨h1.attempt.1, ?_⟩
  rw [h1.attempt.2]
  exact h2

theorem Prog.Quiet.freshInv {h : Handler E Q Ent} (hh : ∀ r, (h r).FreshInv A Inv) (p : Prog E Q Ent α)
    (hp : p.Quiet) : (p.interp h).FreshInv A Inv := by
  induction p with
  | ret a => exact CProg.FreshInv.lift (.ok a)
  | fail e => exact CProg.FreshInv.lift (.error e)
  | ask r k ih => exact (hh r).bind fun x => ih x (hp x)
  | attempt r k ih => exact (hh r).attempt.bind fun x => ih x (hp x)
  | clear k ih => exact hp.elim
  | store e q p k ih => exact hp.elim

theorem callsCode_freshInv {h : Handler E Q Ent} (hh : ∀ r, (h r).FreshInv A Inv) (l : List (Call E Q Ent))
    (hl : ∀ c ∈ l, ∀ p, (c p).Quiet) (p : Pair E) : (callsCode h l p).FreshInv A Inv := by
  induction l generalizing p with
  | nil => exact CProg.FreshInv.lift (.ok p)
  | cons c l ih =>
    exact (Prog.Quiet.freshInv hh (c p) (hl c List.mem_cons_self p)).bind
      (ih fun c hc => hl c (List.mem_cons_of_mem _ hc))

theorem anyCode_freshInv {h : Handler E Q Ent} (hh : ∀ r, (h r).FreshInv A Inv) (l : List (Prog E Q Ent Bool))
    (hl : ∀ c ∈ l, c.Quiet) : (anyCode h l).FreshInv A Inv := by
  induction l with
  | nil => exact CProg.FreshInv.lift (.ok false)
  | cons c l ih =>
    refine (Prog.Quiet.freshInv hh c (hl c List.mem_cons_self)).bind fun b => ?_
    cases b
    · exact ih fun c hc => hl c (List.mem_cons_of_mem _ hc)
    · exact CProg.FreshInv.lift (.ok true)

end

theorem Joined.Safe.fixed_fresh (hJ : J.Safe A) (hq : J.Quiet) (hcd : J.world.cached = true)
    (hst : ∀ k, f k ≠ none → Storable (E.layout k.stat.ty)) (n : Nat) (r : Req E Q Ent) :
    (J.handle A n r).FreshInv A (FixedCache A J f) := by
  have hn := hq.noStore
  induction n generalizing r with
  | zero => exact CProg.FreshInv.lift (.error .fuel)
  | succ n ih =>
    intro c hc
    refine ⟨?_, (hJ.fixed_run hq hcd hst hc (n + 1) r).2⟩
    cases r with
    | stat e q s =>
      change CProg.Fresh A ((CProg.lift _).bind fun _ => _) c
      refine (CProg.Fresh.lift _ _).bind (fun _ hv => ?_)
      rw [CProg.run_lift] at hv ⊢
      have hs : Storable (E.layout s.ty) := by
        change validate _ = _ at hv
        rw [validate_eq] at hv
        by_contra hs
        simp [hs] at hv
      refine CProg.Fresh.bind ?_ (fun _ _ => CProg.Fresh.lift _ _)
      unfold Joined.queryStatErased
      cases he : J.world.isStat e with
      | false => trivial
      | true =>
        simp only [if_true]
        unfold Joined.lookup
        have hcomp : (J.compute A (J.handle A n) e q s).FreshInv A (FixedCache A J f) := by
          rw [J.compute_eq]
          exact (CProg.FreshInv.lift _).bind fun v => callsCode_freshInv ih _ (hq.stat e q) _
        simp only [hcd, if_true, CProg.bind_eq, CProg.bind_get]
        change CProg.Fresh A (CProg.bind _ _) c
        refine (CProg.Fresh.lift _ _).bind (fun o ho => ?_)
        rw [CProg.run_lift] at ho ⊢
        cases hk : HMap.get (CacheKey.eq A) c ⟨e, q, s⟩ with
        | some b =>
          rw [hk] at ho
          obtain ⟨v, hv, -⟩ := ((hc ⟨e, q, s⟩).2 b hk).1 (.inl he)
          change s.Val at v
          change b = .val s.ty v at hv
          subst hv
          simp only [Defaults.cloned, vtClone_val hs] at ho
          cases ho
          trivial
        | none =>
          rw [hk] at ho
          cases ho
          refine ((hcomp c hc).1).bind fun p hp => ?_
          obtain ⟨v0, hv0⟩ := hJ.startValue s hs
          have hok := (hJ.fixed_ne hn hcd hst n q hs he ((hc ⟨e, q, s⟩).1 hk)).run_noClear (A := A)
            (fun c => FixedCache A J f c ∧ HMap.get (CacheKey.eq A) c ⟨e, q, s⟩ = none)
            (fun _ h k => h.1.get k)
            (fun c k b h hb => ⟨h.1.insert hb.1, by
              rw [HMap.get_insert (CacheKey.eq_iff A)]
              simp [hb.2, h.2]⟩)
            (by
              rw [J.compute_eq]
              exact (CProg.NoClear.lift _).bind fun v => callsCode_noClear (fun r => hq.noClear A n r) (hq.stat e q) _)
            (c := c) ⟨hc, hk⟩
          have hp' : ∃ v : s.Val, p = ⟨s, .val s.ty v⟩ := by
            have hp2 := (callsCode_safe (X := fun _ => True) (okGet := fun _ _ => True) (okPut := fun _ _ => True)
              (h := J.handle A n) (hJ.statCalls e q) (p := ⟨s, .val s.ty v0⟩) ⟨v0, rfl⟩
              (fun r => (CProg.Good.any _).mono (fun r _ => by cases r <;> trivial)) (fun _ _ => trivial)
              (fun _ _ _ => .inl fun _ _ _ => trivial)).outcome A (fun _ => trivial) c
            simp only [J.compute_eq, hv0, CProg.lift_ok, CProg.bind_ret] at hp
            rw [hp] at hp2
            obtain ⟨s', b⟩ := p
            obtain ⟨hss, v', hv'⟩ := hp2
            change s' = s at hss
            subst hss
            change s'.Val at v'
            change b = .val s'.ty v' at hv'
            exact ⟨v', by rw [hv']⟩
          obtain ⟨v, rfl⟩ := hp'
          simp only [Joined.remember_eq hs, hcd, if_true, CProg.bind_eq, CProg.bind_put, CProg.bind_ret]
          exact ⟨hok.2.2, trivial⟩
    | relation a b q s =>
      change CProg.Fresh A ((CProg.lift _).bind fun _ => _) c
      refine (CProg.Fresh.lift _ _).bind (fun _ hv => ?_)
      rw [CProg.run_lift]
      rw [J.queryRelationErased_eq]
      cases J.world.isStat a && J.world.isStat b with
      | false => exact (CProg.FreshInv.bind (CProg.FreshInv.lift (.ok none)) fun o => CProg.FreshInv.lift _) c hc |>.1
      | true =>
        simp only [if_true]
        exact (((CProg.FreshInv.lift _).bind fun v => (callsCode_freshInv ih _ (hq.relation a b q) _).bind fun p =>
          CProg.FreshInv.lift (.ok (some p.value))).bind fun o => CProg.FreshInv.lift _) c hc |>.1
    | attr e a =>
      change CProg.Fresh A (J.hasAttributeErased _ e a) c
      rw [J.hasAttributeErased_eq]
      exact (anyCode_freshInv ih _ (hq.attr e a) c hc).1

end

end BSQ
