import Verif.Props.Cache
/-!
# C53: stats that depend on other stats
-/
namespace BSQ
set_option linter.unusedSectionVars false
variable {E : Env} {Q Ent α : Type} {A : Addr E} {J : Joined E Q Ent}

/-- a call on a pair of stat `s` only asks for what is below `r`, keeps the stat, and does not run forever by
itself -/
def Call.Below (lt : Req E Q Ent → Req E Q Ent → Prop) (r : Req E Q Ent) (s : StatInst E)
    (c : Call E Q Ent) : Prop :=
  ∀ p, p.stat = s → (c p).Asks (lt · r) ∧
    (c p).All fun
      | .ok p' => p'.stat = s
      | .error x => x ≠ .fuel

/-- all user code run for a request only asks for what is below it -/
def Joined.Below (J : Joined E Q Ent) (lt : Req E Q Ent → Req E Q Ent → Prop) : Req E Q Ent → Prop
  | .stat e q s => ∀ c ∈ J.statCalls e q, c.Below lt (.stat e q s) s
  | .relation a b q s => ∀ c ∈ J.relationCalls a b q, c.Below lt (.relation a b q s) s
  | .attr e a => ∀ c ∈ J.attrCalls e a, c.Asks (lt · (.attr e a)) ∧ c.All (· ≠ .error .fuel)

/-- from some depth on it has an outcome -/
def Settles (X : Nat → Res α) : Prop := ∃ N, ∀ m ≥ N, X m ≠ .error .fuel

theorem Settles.const {x : Res α} (h : x ≠ .error .fuel) : Settles (fun _ => x) := ⟨0, fun _ _ => h⟩

theorem Settles.bind {β : Type} {X : Nat → Res α} {F : Nat → α → Res β} (hX : Settles X) (hm : DepthMono X)
    (hF : ∀ a m, X m = .ok a → Settles (fun n => F n a)) : Settles (fun n => X n >>= F n) := by
  obtain ⟨N, hN⟩ := hX
  cases hx : X N with
  | error e =>
    refine ⟨N, fun m hmN => ?_⟩
    have : X m = .error e := by rw [hm N m hmN (hN N (Nat.le_refl N)), hx]
    simp only [this, Res.bind_error]
    intro h
    cases h
    exact hN N (Nat.le_refl N) hx
  | ok a =>
    obtain ⟨M, hM⟩ := hF a N hx
    refine ⟨max N M, fun m hmN => ?_⟩
    have : X m = .ok a := by
      rw [hm N m (Nat.le_trans (Nat.le_max_left N M) hmN) (hN N (Nat.le_refl N)), hx]
    simp only [this, Res.bind_ok]
    exact hM m (Nat.le_trans (Nat.le_max_right N M) hmN)

theorem Settles.attempt {X : Nat → Res α} (hX : Settles X) : Settles (fun n => (X n).attempt) :=
  hX.imp fun _ h m hm hf => h m hm (Res.attempt_fuel.1 hf)

theorem Prog.settles {lt : Req E Q Ent → Prop} {P : Res α → Prop}
    (ih : ∀ r, lt r → Settles (fun n => J.answer A n r)) (p : Prog E Q Ent α) (hp : p.Asks lt) (ha : p.All P)
    (hP : ∀ x, P x → x ≠ .error .fuel) :
    Settles (fun n => p.eval (J.answer A n)) ∧ ∀ n a, p.eval (J.answer A n) = .ok a → P (.ok a) := by
  induction p with
  | ret a =>
    refine ⟨Settles.const (by simp), fun n b h => ?_⟩
    cases h
    exact ha
  | fail e => exact ⟨Settles.const (hP _ ha), fun n b h => by cases h⟩
  | ask r k ihk =>
    refine ⟨Settles.bind (ih r hp.1) (answer_mono r) (fun a m _ => (ihk a (hp.2 a) (ha a)).1), fun n b h => ?_⟩
    obtain ⟨x, -, h⟩ := Res.bind_eq_ok.1 h
    exact (ihk x (hp.2 x) (ha x)).2 n b h
  | attempt r k ihk =>
    refine ⟨Settles.bind (ih r hp.1).attempt (answer_mono r).attempt (fun a m _ => (ihk a (hp.2 a) (ha a)).1),
      fun n b h => ?_⟩
    obtain ⟨x, -, h⟩ := Res.bind_eq_ok.1 h
    exact (ihk x (hp.2 x) (ha x)).2 n b h
  | clear k ihk => exact ihk hp ha
  | store e q p k ihk =>
    simp only [Prog.All] at ha
    simp only [Prog.eval]
    cases hb : p.cloneBuffer with
    | ok b =>
      rw [hb] at ha
      exact ihk hp ha
    | error x =>
      rw [hb] at ha
      exact ⟨Settles.const (hP _ ha), fun n b h => by cases h⟩

theorem runCalls_settles {lt : Req E Q Ent → Req E Q Ent → Prop} {r : Req E Q Ent} {s : StatInst E}
    (ih : ∀ r', lt r' r → Settles (fun n => J.answer A n r')) (l : List (Call E Q Ent))
    (hl : ∀ c ∈ l, c.Below lt r s) (p : Pair E) (hp : p.stat = s) :
    Settles (fun n => runCalls (J.answer A n) l p) := by
  induction l generalizing p with
  | nil => exact Settles.const (by simp)
  | cons c l ihl =>
    obtain ⟨h1, h2⟩ := hl c List.mem_cons_self p hp
    obtain ⟨h3, h4⟩ := Prog.settles ih (c p) h1 h2 (fun x hx => by
      cases x with
      | ok p' => simp
      | error e => intro h; cases h; exact hx rfl)
    exact Settles.bind h3 (DepthMono.eval answer_mono _)
      (fun p' m hm => ihl (fun c hc => hl c (List.mem_cons_of_mem _ hc)) p' (h4 m p' hm))

theorem anyCalls_settles {lt : Req E Q Ent → Prop}
    (ih : ∀ r', lt r' → Settles (fun n => J.answer A n r')) (l : List (Prog E Q Ent Bool))
    (hl : ∀ c ∈ l, c.Asks lt ∧ c.All (· ≠ .error .fuel)) :
    Settles (fun n => anyCalls (J.answer A n) l) := by
  induction l with
  | nil => exact Settles.const (by simp)
  | cons c l ihl =>
    obtain ⟨h1, h2⟩ := hl c List.mem_cons_self
    refine Settles.bind (Prog.settles ih c h1 h2 (fun _ h => h)).1 (DepthMono.eval answer_mono _)
      (fun b _ _ => ?_)
    cases b
    · exact ihl (fun c hc => hl c (List.mem_cons_of_mem _ hc))
    · exact Settles.const (by simp)

theorem Settles.shift {X : Nat → Res α} (h : Settles fun n => X (n + 1)) : Settles X := by
  obtain ⟨N, hN⟩ := h
  refine ⟨N + 1, fun m hm => ?_⟩
  cases m with
  | zero => omega
  | succ m => exact hN m (by omega)

theorem validate_ne_fuel (l : Layout) : validate l ≠ .error .fuel := by
  rw [validate_eq]; split <;> simp

theorem Buf.read_ne_fuel (u : E.U) (b : Buf E) : b.read u ≠ .error .fuel := by
  unfold Buf.read
  rw [validate_eq]
  split
  · cases b with
    | val w x =>
      by_cases h : w = u
      · simp [Buf.get, h]
      · simp [Buf.get, h]
    | op w o => simp [Buf.get]
  · simp

theorem vtClone_ne_fuel (s : E.S) (b : Buf E) : vtClone s b ≠ .error .fuel := by
  unfold vtClone
  intro h
  cases hx : b.read (E.valTy s) with
  | error e => rw [hx] at h; cases h; exact Buf.read_ne_fuel _ _ hx
  | ok x =>
    rw [hx, Res.bind_ok, Buf.from_] at h
    cases hv : validate (E.layout (E.valTy s)) with
    | error e => rw [hv] at h; cases h; exact validate_ne_fuel _ hv
    | ok x => rw [hv] at h; cases h

theorem startValue_ne_fuel (w : World E Q Ent) (s : StatInst E) : w.startValue A s ≠ .error .fuel := by
  have hd : vtDefault s.vt ≠ .error .fuel := by
    unfold vtDefault Buf.from_
    intro h
    cases hv : validate (E.layout (E.valTy s.vt)) with
    | error e => rw [hv] at h; cases h; exact validate_ne_fuel _ hv
    | ok x => rw [hv] at h; cases h
  have hr : w.registered A s ≠ .error .fuel := by
    unfold World.registered
    cases w.defaults with
    | none => simp
    | some d =>
      simp only [Defaults.getDyn]
      intro h
      cases hg : HMap.get (StatInst.eq A) d s with
      | none =>
        rw [hg] at h
        simp only [Defaults.cloned, Res.bind_ok] at h
        cases hv : vtDefault s.vt with
        | error e => rw [hv] at h; cases h; exact hd hv
        | ok x => rw [hv] at h; cases h
      | some b =>
        rw [hg] at h
        simp only [Defaults.cloned] at h
        cases hc : vtClone s.vt b with
        | error e => rw [hc] at h; cases h; exact vtClone_ne_fuel _ _ hc
        | ok x =>
          rw [hc] at h
          simp only [Res.bind_ok] at h
          cases hv : vtDefault s.vt with
          | error e => rw [hv] at h; cases h; exact hd hv
          | ok x => rw [hv] at h; cases h
  unfold World.startValue
  intro h
  cases hx : w.registered A s with
  | error e => rw [hx] at h; cases h; exact hr hx
  | ok x =>
    rw [hx, Res.bind_ok] at h
    cases hv : vtDefault s.vt with
    | error e => rw [hv] at h; cases h; exact hd hv
    | ok x => rw [hv] at h; cases h

/-- C53: if all user code only asks for requests smaller in some well-founded order, each request has an
outcome: the recursion depth needed is bounded (for that request) -/
theorem C53_terminates (lt : Req E Q Ent → Req E Q Ent → Prop) (hwf : WellFounded lt)
    (hJ : ∀ r, J.Below lt r) (r : Req E Q Ent) : ∃ N, ∀ m ≥ N, J.answer A m r ≠ .error .fuel := by
  induction r using hwf.induction with
  | h r ih =>
    refine Settles.shift (X := fun n => J.answer A n r) ?_
    simp only [J.answer_succ]
    have hfin : ∀ (s : StatInst E) (p : Pair E), Settles (fun _ : Nat =>
        p.value.read s.ty >>= fun x => (.ok (some x) : Res (Option s.Val))) := by
      intro s p
      refine Settles.const ?_
      cases h : p.value.read s.ty with
      | error e => intro h'; cases h'; exact Buf.read_ne_fuel _ _ h
      | ok x => simp
    cases r with
    | stat e q s =>
      change Settles fun n => validate (E.layout s.ty) >>= fun _ => _
      refine Settles.bind (X := fun _ => validate (E.layout s.ty)) (Settles.const (validate_ne_fuel _))
        (DepthMono.const _) (fun _ _ _ => ?_)
      cases J.world.isStat e with
      | false => exact Settles.const (by simp)
      | true =>
        refine Settles.bind (X := fun _ => J.world.startValue A s) (Settles.const (startValue_ne_fuel _ _))
          (DepthMono.const _) (fun v _ _ => ?_)
        exact Settles.bind (runCalls_settles ih _ (hJ (.stat e q s)) _ rfl) (DepthMono.calls answer_mono _ _)
          (fun p _ _ => hfin s p)
    | relation a b q s =>
      change Settles fun n => validate (E.layout s.ty) >>= fun _ => _
      refine Settles.bind (X := fun _ => validate (E.layout s.ty)) (Settles.const (validate_ne_fuel _))
        (DepthMono.const _) (fun _ _ _ => ?_)
      cases J.world.isStat a && J.world.isStat b with
      | false => exact Settles.const (by simp)
      | true =>
        refine Settles.bind (X := fun _ => J.world.startValue A s) (Settles.const (startValue_ne_fuel _ _))
          (DepthMono.const _) (fun v _ _ => ?_)
        exact Settles.bind (runCalls_settles ih _ (hJ (.relation a b q s)) _ rfl) (DepthMono.calls answer_mono _ _)
          (fun p _ _ => hfin s p)
    | attr e a => exact anyCalls_settles ih _ (hJ (.attr e a))

section cached
variable [DecidableEq Q] [DecidableEq Ent]

/-- C53: with a cache as well: from the same depth on, each query in any history (as in C48) has an outcome -/
theorem C53_terminates_cached (lt : Req E Q Ent → Req E Q Ent → Prop) (hwf : WellFounded lt)
    (hJ : ∀ r, J.Below lt r) (hs : J.Right A) (evs : List (Event E Q Ent))
    (hq : ∀ ev ∈ evs, ev.isQuery = true ∨ ev = .clear) (r : Req E Q Ent) :
    ∃ N, ∀ m ≥ N, ((J.handle A m r).run A (history A J [] evs).2).1 ≠ .error .fuel := by
  obtain ⟨N, hN⟩ := C53_terminates (A := A) lt hwf hJ r
  refine ⟨N, fun m hm => ?_⟩
  have := C51_agreeing_partial (A := A) J J hs hs (fun e q s v n h => ⟨n, h⟩) evs hq m r
  rw [this.1 (hN m hm)]
  exact hN m hm

/-- C53: if some source of a stat, whatever ran before it, asks for that very stat with the same query on the
same entity, the query never returns a value at any recursion depth, whatever else is cached, and that stat
is not cached either, as long as streams store nothing in the cache themselves (they may end the recursion so,
`C94_ends_recursion`) -/
theorem C53_self_query_never_returns (hJ : J.Safe A) (hn : J.NoStore) (e : Ent) (q : QualifierQuery Q) (s : StatInst E)
    (he : J.world.isStat e = true) (c : Call E Q Ent) (hc : c ∈ J.statCalls e q)
    (hask : ∀ p, p.stat = s → ∃ k, c p = .ask (.stat e q s) k) (n : Nat) (C : Cache E Q Ent)
    (hC : HMap.get (CacheKey.eq A) C ⟨e, q, s⟩ = none) :
    (∀ v, ((J.handle A n (.stat e q s)).run A C).1 ≠ .ok v) ∧
    HMap.get (CacheKey.eq A) ((J.handle A n (.stat e q s)).run A C).2 ⟨e, q, s⟩ = none := by
  let okGet : CacheKey E Q Ent → Option (Buf E) → Prop := fun k o => k = ⟨e, q, s⟩ → o = none
  let okPut : CacheKey E Q Ent → Buf E → Prop := fun k _ => k ≠ ⟨e, q, s⟩
  have main : ∀ n r, CProg.Good okGet okPut (fun x : Res r.Resp => r = .stat e q s → ∀ v, x ≠ .ok v)
      (J.handle A n r) := by
    intro n
    induction n with
    | zero => exact fun r _ v h => by cases h
    | succ n ih =>
      have ihT : ∀ r, CProg.Good okGet okPut (ErrIn fun _ => True) (J.handle A n r) :=
        fun r => (ih r).mono (fun x _ => by cases x <;> trivial)
      have hlift : ∀ {β : Type} (x : Res β), CProg.Good okGet okPut (fun _ => True) (CProg.lift x) :=
        fun x => CProg.Good.lift trivial
      have hcalls : ∀ (l : List (Call E Q Ent)) (_ : ∀ c ∈ l, c.Safe) (_ : ∀ c ∈ l, ∀ p, (c p).NoStore) (s' : StatInst E) (v : s'.Val),
          CProg.Good okGet okPut (Call.Outcome (fun _ => True) s')
            (callsCode (J.handle A n) l ⟨s', .val s'.ty v⟩) :=
        fun l hl hn s' v => callsCode_safe hl (p := ⟨s', .val s'.ty v⟩) ⟨v, rfl⟩ ihT (fun _ _ => trivial)
          fun c hc p => .inr (hn c hc p)
      intro r
      cases r with
      | stat e' q' s' =>
        by_cases hr : (⟨e', q', s'⟩ : CacheKey E Q Ent) = ⟨e, q, s⟩
        · cases hr
          have hfin : ∀ x : CProg E Q Ent (Option s.Val), x =
              ((CProg.lift (validate (E.layout s.ty))).bind fun _ =>
                (J.queryStatErased A (J.handle A n) e q s).bind fun o => CProg.lift (StatMap.readAs s o)) →
              CProg.Good okGet okPut (fun x => ∀ v, x ≠ .ok v) x := by
            rintro x rfl
            have hv : CProg.Good okGet okPut (fun x => x = validate (E.layout s.ty))
              (CProg.lift (validate (E.layout s.ty)) : CProg E Q Ent Unit) := CProg.Good.lift rfl
            refine hv.bind (fun u hu => ?_) (fun x _ v h => by cases h)
            have hs : Storable (E.layout s.ty) := by
              rw [validate_eq] at hu
              by_contra hs
              simp [hs] at hu
            have hcomp : CProg.Good okGet okPut (fun x => ∀ v, x ≠ .ok v) (J.compute A (J.handle A n) e q s) := by
              rw [J.compute_eq]
              obtain ⟨v0, hv0⟩ := hJ.startValue s hs
              rw [hv0, CProg.lift_ok, CProg.bind_ret]
              obtain ⟨l1, l2, hl⟩ := List.append_of_mem hc
              have hsafe := hJ.statCalls e q
              have hno := hn.stat e q
              rw [hl] at hsafe hno ⊢
              rw [callsCode_append]
              refine (hcalls l1 (fun c h => hsafe c (List.mem_append_left _ h)) (fun c h => hno c (List.mem_append_left _ h)) s v0).bind
                (fun p hp => ?_) (fun x _ v h => by cases h)
              obtain ⟨k, hk⟩ := hask p hp.1
              simp only [callsCode, hk]
              change CProg.Good okGet okPut _ (((J.handle A n (.stat e q s)).bind _).bind _)
              rw [CProg.bind_assoc]
              exact (ih (.stat e q s)).bind (fun v h => absurd rfl (h rfl v)) (fun x _ v h => by cases h)
            have hmiss : CProg.Good okGet okPut (fun x => ∀ v, x ≠ .ok v)
                ((J.miss A (J.handle A n) e q s).bind fun o => CProg.lift (StatMap.readAs s o)) := by
              unfold Joined.miss
              simp only [CProg.bind_eq, CProg.bind_assoc]
              exact hcomp.bind (fun p hp => absurd rfl (hp p)) (fun x _ v h => by cases h)
            unfold Joined.queryStatErased
            simp only [he, if_true, CProg.bind_eq, CProg.bind_assoc]
            unfold Joined.lookup
            split
            · intro o ho
              cases ho rfl
              simp only [Defaults.cloned, CProg.lift_ok, CProg.bind_ret]
              exact hmiss
            · exact hmiss
          exact (hfin _ rfl).mono (fun x hx _ => hx)
        · have hne : (Req.stat e' q' s' : Req E Q Ent) ≠ .stat e q s := by
            intro h; cases h; exact hr rfl
          refine CProg.Good.mono (P := fun _ => True) ?_ (fun x _ h => absurd h hne)
          change CProg.Good okGet okPut _ ((CProg.lift (validate (E.layout s'.ty))).bind fun _ => _)
          have hv : CProg.Good okGet okPut (fun x => x = validate (E.layout s'.ty))
            (CProg.lift (validate (E.layout s'.ty)) : CProg E Q Ent Unit) := CProg.Good.lift rfl
          refine hv.bind (fun u hu => ?_) (fun _ _ => trivial)
          have hs : Storable (E.layout s'.ty) := by
            rw [validate_eq] at hu
            by_contra hs
            simp [hs] at hu
          refine CProg.Good.bind (P := fun _ => True) ?_ (fun _ _ => hlift _) (fun _ _ => trivial)
          have hmiss : CProg.Good okGet okPut (fun _ => True) (J.miss A (J.handle A n) e' q' s') := by
            unfold Joined.miss
            simp only [CProg.bind_eq]
            rw [J.compute_eq]
            obtain ⟨v0, hv0⟩ := hJ.startValue s' hs
            rw [hv0, CProg.lift_ok, CProg.bind_ret]
            refine (hcalls _ (hJ.statCalls e' q') (hn.stat e' q') s' v0).bind (fun p hp => ?_) (fun _ _ => trivial)
            refine CProg.Good.bind (P := fun _ => True) ?_ (fun _ _ => trivial) (fun _ _ => trivial)
            unfold Joined.remember
            split
            · refine (hlift _).bind (fun b _ => ⟨?_, trivial⟩) (fun _ _ => trivial)
              rw [hp.1]
              exact hr
            · trivial
          unfold Joined.queryStatErased
          split
          · refine CProg.Good.bind (P := fun _ => True) ?_ (fun o _ => ?_) (fun _ _ => trivial)
            · unfold Joined.lookup
              split
              · exact fun o _ => hlift _
              · trivial
            · cases o
              · exact hmiss
              · trivial
          · trivial
      | relation a b q' s' =>
        refine CProg.Good.mono (P := fun _ => True) ?_ (fun x _ h => by cases h)
        change CProg.Good okGet okPut _ ((CProg.lift (validate (E.layout s'.ty))).bind fun _ => _)
        have hv : CProg.Good okGet okPut (fun x => x = validate (E.layout s'.ty))
          (CProg.lift (validate (E.layout s'.ty)) : CProg E Q Ent Unit) := CProg.Good.lift rfl
        refine hv.bind (fun u hu => ?_) (fun _ _ => trivial)
        have hs : Storable (E.layout s'.ty) := by
          rw [validate_eq] at hu
          by_contra hs
          simp [hs] at hu
        refine CProg.Good.bind (P := fun _ => True) ?_ (fun _ _ => hlift _) (fun _ _ => trivial)
        rw [J.queryRelationErased_eq]
        split
        · obtain ⟨v0, hv0⟩ := hJ.startValue s' hs
          rw [hv0, CProg.lift_ok, CProg.bind_ret]
          exact (hcalls _ (hJ.relationCalls a b q') (hn.relation a b q') s' v0).bind (fun _ _ => trivial) (fun _ _ => trivial)
        · trivial
      | attr e' a =>
        refine CProg.Good.mono (P := fun _ => True) ?_ (fun x _ h => by cases h)
        change CProg.Good okGet okPut _ (J.hasAttributeErased _ e' a)
        rw [J.hasAttributeErased_eq]
        exact (anyCode_safe (hJ.attrCalls e' a) ihT (fun _ _ => trivial) fun c hc => .inr (hn.attr e' a c hc)).mono (fun _ _ => trivial)
  have := (main n (.stat e q s)).run (A := A)
    (fun c => HMap.get (CacheKey.eq A) c ⟨e, q, s⟩ = none)
    (fun c hc k hk => by rw [hk]; exact hc)
    (fun c k b hc hk => by rw [HMap.get_insert (CacheKey.eq_iff A), if_neg hk]; exact hc)
    (fun c _ => by
      cases h : c.clear with
      | ok c' =>
        obtain ⟨_, -, h⟩ := Res.bind_eq_ok.1 h
        cases h
        rfl
      | error x => exact fun _ v h => by cases h) hC
  exact ⟨this.1 rfl, this.2⟩

theorem CProg.run_attempt_fuel {x : CProg E Q Ent α} {c c' : Cache E Q Ent} (h : x.run A c = (.error .fuel, c')) :
    x.attempt.run A c = (.error .fuel, c') := by
  induction x generalizing c with
  | ret a => cases h
  | fail e => cases h; rfl
  | get k g ih => exact ih _ h
  | put k b g ih => exact ih h
  | clear g ih =>
    rw [CProg.attempt_clear, CProg.run_clear]
    rw [CProg.run_clear] at h
    cases hc : c.clear with
    | ok c₁ => rw [hc] at h; exact ih h
    | error e => rw [hc] at h; cases h; rfl

/-- C53: if it is the first source that does so, even if it would catch panics, each run exhausts any recursion depth
(a stack overflow) and leaves the cache alone -/
theorem C53_self_query_diverges (hJ : J.Safe A) (e : Ent) (q : QualifierQuery Q) (s : StatInst E)
    (hs : Storable (E.layout s.ty)) (he : J.world.isStat e = true) (c : Call E Q Ent)
    (l : List (Call E Q Ent)) (hc : J.statCalls e q = c :: l)
    (hask : ∀ p, p.stat = s → (∃ k, c p = .ask (.stat e q s) k) ∨ ∃ k, c p = .attempt (.stat e q s) k) (n : Nat) (C : Cache E Q Ent)
    (hC : HMap.get (CacheKey.eq A) C ⟨e, q, s⟩ = none) :
    (J.handle A n (.stat e q s)).run A C = (.error .fuel, C) := by
  induction n with
  | zero => rfl
  | succ n ih =>
    obtain ⟨v0, hv0⟩ := hJ.startValue s hs
    suffices h : ∀ x : CProg E Q Ent (Option s.Val), x =
        ((CProg.lift (validate (E.layout s.ty))).bind fun _ =>
          (J.queryStatErased A (J.handle A n) e q s).bind fun o => CProg.lift (StatMap.readAs s o)) →
        x.run A C = (.error .fuel, C) from h _ rfl
    rintro x rfl
    have hmiss : ((J.miss A (J.handle A n) e q s).bind fun o => CProg.lift (StatMap.readAs s o)).run A C =
        (.error .fuel, C) := by
      unfold Joined.miss
      simp only [CProg.bind_eq, CProg.bind_assoc]
      rw [J.compute_eq, hv0, CProg.lift_ok, CProg.bind_ret, hc, callsCode]
      rcases hask ⟨s, .val s.ty v0⟩ rfl with ⟨k, hk⟩ | ⟨k, hk⟩
      · rw [hk]
        change ((((J.handle A n (.stat e q s)).bind _).bind _).bind _).run A C = _
        rw [CProg.bind_assoc, CProg.bind_assoc, CProg.run_bind, ih]
      · rw [hk]
        change ((((J.handle A n (.stat e q s)).attempt.bind _).bind _).bind _).run A C = _
        rw [CProg.bind_assoc, CProg.bind_assoc, CProg.run_bind, CProg.run_attempt_fuel ih]
    simp only [validate_eq, hs, if_true, CProg.lift_ok, CProg.bind_ret, Joined.queryStatErased, he, CProg.bind_eq,
      CProg.bind_assoc, Joined.lookup]
    split
    · simp only [CProg.bind_get, CProg.run_get, hC, Defaults.cloned, CProg.lift_ok, CProg.bind_ret]
      exact hmiss
    · exact hmiss

end cached

/-! ### concrete cases -/

/-- integer stat `i + 1` asks for integer stat `i` and adds one to its sum -/
def demoChain : CStream demo (BitVec 8) Nat where
  Item := Nat
  query e := some e
  stream e _ q p :=
    if p.stat.vt = true ∧ 0 < p.stat.index then
      .ask (.stat e q (demoInt (p.stat.index - 1))) fun (o : Option StatInt) =>
        demoAdd (match o with | some v => v.addend + 1 | none => 0) p
    else .ret p

def demoChained : Joined demo (BitVec 8) Nat := ({ demoWorld with relations := none }).withComponent demoChain

/-- requests ordered by the index of the stat -/
def demoBelow : Req demo (BitVec 8) Nat → Req demo (BitVec 8) Nat → Prop :=
  InvImage (· < ·) fun
    | .stat _ _ s => s.index
    | .relation _ _ _ s => s.index
    | .attr _ _ => 0

theorem demoAdd_keeps (k : Int) (p : Pair demo) :
    (demoAdd k p).Asks (fun _ => False) ∧ (demoAdd k p).All fun
      | .ok p' => p'.stat = p.stat
      | .error x => x ≠ .fuel := by
  obtain ⟨⟨vt, i⟩, b⟩ := p
  have hl : ∀ r : Res (Pair demo), (Prog.lift r : DProg (Pair demo)).Asks (fun _ => False) := by
    intro r; cases r <;> trivial
  refine ⟨hl _, ?_⟩
  cases vt with
  | false => rfl
  | true =>
    cases b with
    | op u o => intro h; cases h
    | val u v =>
      cases u with
      | false => intro h; cases h
      | true =>
        change StatInt at v
        have hc : Pair.cast demoAddr (⟨demoInt i, .val true v⟩ : Pair demo) true = .ok (some (i, v)) := rfl
        unfold demoAdd
        rw [hc]
        change Prog.All _ (Prog.lift ((demoSv true).add v k >>= fun v' =>
          .ok (Pair.write ⟨demoInt i, .val true v⟩ true v')))
        have hn : (demoSv true).add v k ≠ .error .fuel := by
          change ((⟨.i32, .prim, .debug⟩ : NumTy).add v.addend k >>= _) ≠ _
          unfold NumTy.add NumTy.fit
          split_ifs <;> simp [NumTy.ovf]
        cases h : (demoSv true).add v k with
        | error x =>
          rw [h] at hn
          intro hx
          exact hn (by rw [hx])
        | ok v' => rfl

theorem Prog.Asks.mono {R S : Req E Q Ent → Prop} {p : Prog E Q Ent α} (h : p.Asks R) (hRS : ∀ r, R r → S r) :
    p.Asks S := by
  induction p with
  | ret a => trivial
  | fail e => trivial
  | ask r k ih => exact ⟨hRS _ h.1, fun x => ih x (h.2 x)⟩
  | attempt r k ih => exact ⟨hRS _ h.1, fun x => ih x (h.2 x)⟩
  | clear k ih => exact ih h
  | store e q p k ih => exact ih h

theorem demoChained_below (r : Req demo (BitVec 8) Nat) : demoChained.Below demoBelow r := by
  cases r with
  | stat e q s =>
    intro c hc
    cases List.mem_singleton.1 hc
    rintro p rfl
    change Prog.Asks _ (if p.stat.vt = true ∧ 0 < p.stat.index then _ else _) ∧
      Prog.All _ (if p.stat.vt = true ∧ 0 < p.stat.index then _ else _)
    split
    · rename_i h
      refine ⟨⟨?_, fun o => (demoAdd_keeps _ p).1.mono (fun _ h => h.elim)⟩, fun o => (demoAdd_keeps _ p).2.mono (fun r hr => by
        cases r <;> exact hr)⟩
      change p.stat.index - 1 < p.stat.index
      omega
    · exact ⟨trivial, rfl⟩
  | relation a b q s => intro c hc; cases hc
  | attr e a =>
    intro c hc
    have : demoChained.attrCalls e a = [.ret false] := by
      unfold Joined.attrCalls
      split <;> rfl
    rw [this] at hc
    cases List.mem_singleton.1 hc
    exact ⟨trivial, by intro h; cases h⟩

example (r : Req demo (BitVec 8) Nat) :
    ∃ N, ∀ m ≥ N, demoChained.answer demoAddr m r ≠ .error .fuel :=
  C53_terminates demoBelow (InvImage.wf _ Nat.lt_wfRel.wf) demoChained_below r
example : demoChained.answer demoAddr 4 (.stat 0 demoQ (demoInt 3)) =
    (.ok (some ⟨3, -2147483648, 2147483647, 1⟩) : Res (Option StatInt)) := rfl
example : demoChained.answer demoAddr 3 (.stat 0 demoQ (demoInt 3)) = .error .fuel := rfl

/-- a stream that asks for the stat it is asked for -/
def demoLoop : CStream demo (BitVec 8) Nat where
  Item := Nat
  query e := some e
  stream e _ q p := .ask (.stat e q p.stat) fun _ => .ret p

def demoLooping : Joined demo (BitVec 8) Nat := ({ demoWorld with relations := none }).withComponent demoLoop

theorem demoLooping_safe : demoLooping.Safe demoAddr where
  globals g hg e q := by cases hg
  streams st hst e it _ this q := by
    cases List.mem_singleton.1 hst
    exact fun p hp x => ⟨rfl, hp⟩
  relations st hst a b q := by cases hst
  attrs st hst e it _ this a := by
    cases List.mem_singleton.1 hst
    intro h; cases h
  defaults d hd := by cases hd

theorem demoLooping_noStore : demoLooping.NoStore := by
  refine .of_streams (fun g hg => ?_) (fun st hst e it _ this q => ?_) (fun st hst => ?_)
    (fun st hst e it _ this a => ?_)
  · cases hg
  · cases List.mem_singleton.1 hst; exact fun _ _ => trivial
  · cases hst
  · cases List.mem_singleton.1 hst; trivial

example (n : Nat) : (demoLooping.handle demoAddr n (.stat 0 demoQ (demoInt 0))).run demoAddr [] =
    (.error .fuel, []) :=
  C53_self_query_diverges demoLooping_safe 0 demoQ (demoInt 0) (by decide) rfl _ [] rfl
    (fun p hp => .inl ⟨fun _ => .ret p, by rw [← hp]; rfl⟩) n [] rfl

example (n : Nat) (C : Cache demo (BitVec 8) Nat)
    (hC : HMap.get (CacheKey.eq demoAddr) C ⟨0, demoQ, demoInt 0⟩ = none) :
    (∀ v, ((demoLooping.handle demoAddr n (.stat 0 demoQ (demoInt 0))).run demoAddr C).1 ≠ .ok v) :=
  (C53_self_query_never_returns demoLooping_safe demoLooping_noStore 0 demoQ (demoInt 0) rfl _ (List.mem_singleton_self _)
    (fun p hp => ⟨fun _ => .ret p, by rw [← hp]; rfl⟩) n C hC).1

theorem demoChained_safe : demoChained.Safe demoAddr where
  globals g hg e q := by cases hg
  streams st hst e it _ this q := by
    cases List.mem_singleton.1 hst
    intro p hp
    change Prog.All _ (if p.stat.vt = true ∧ 0 < p.stat.index then _ else _)
    split
    · exact fun x => demoAdd_safe _ p hp
    · exact ⟨rfl, hp⟩
  relations st hst a b q := by cases hst
  attrs st hst e it _ this a := by
    cases List.mem_singleton.1 hst
    intro h; cases h
  defaults d hd := by cases hd

theorem demoChained_noStore : demoChained.NoStore := by
  refine .of_streams (fun g hg => ?_) (fun st hst e it _ this q => ?_) (fun st hst => ?_)
    (fun st hst e it _ this a => ?_)
  · cases hg
  · cases List.mem_singleton.1 hst
    intro p
    change Prog.NoStore (if p.stat.vt = true ∧ 0 < p.stat.index then _ else _)
    split
    · exact fun x => (demoAdd_quiet _ p).noStore
    · trivial
  · cases hst
  · cases List.mem_singleton.1 hst; trivial

example (r : Req demo (BitVec 8) Nat) : ∃ N, ∀ m ≥ N, ((demoChained.handle demoAddr m r).run demoAddr
    (history demoAddr demoChained [] [.query 3 (.stat 0 demoQ (demoInt 2)), .clear]).2).1 ≠ .error .fuel :=
  C53_terminates_cached demoBelow (InvImage.wf _ Nat.lt_wfRel.wf) demoChained_below
    (demoChained_safe.honest demoChained_noStore).right _
    (by intro ev h
        simp only [List.mem_cons, List.not_mem_nil, or_false] at h
        rcases h with rfl | rfl
        · exact .inl rfl
        · exact .inr rfl) r

end BSQ
