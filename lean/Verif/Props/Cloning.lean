import Verif.Proofs.Cloning
import Verif.Props.SaveWorld
/-!
# C131: `Clone` of values that does not copy
-/
namespace BSQ
variable {E : Env} {Q Ent α β : Type} {A : Addr E} {C : Cloning E} {F : Joined E Q Ent → Prop}

/-! ### what is possible -/

section
variable [DecidableEq Q] [DecidableEq Ent]

omit [DecidableEq Q] [DecidableEq Ent] in
theorem recloned_safe {O : Outcomes E Q Ent} (h : ∀ r x, O r x → x ≠ .error .ub) :
    ∀ r x, O.recloned C r x → x ≠ .error .ub := by
  intro r x hx
  cases r with
  | stat e q s =>
    rcases hx with hx | ⟨v, -, rfl⟩
    · exact h _ x hx
    · intro h; cases h
  | relation a b q s => exact h _ x hx
  | attr e a => exact h _ x hx

omit [DecidableEq Q] [DecidableEq Ent] in
theorem CloneMixed.safe (hs : ∀ J, F J → J.Safe A) (n : Nat) (r : Req E Q Ent) (x : Res r.Resp)
    (h : CloneMixed A C F n r x) : x ≠ .error .ub := by
  induction n generalizing r with
  | zero => cases h; intro h; cases h
  | succ n ih =>
    obtain ⟨J, hJ, h⟩ := h
    exact Joined.May.safe (hs J hJ).cloning (recloned_safe ih) h

/-- **C131** With any number of threads, changes of the world and clears, whatever `Clone` returns: each result of a
query is one that may be computed, or the clone of a clone of one, and nested questions are answered by such as well.
Nothing is undefined behaviour, each value in the cache is the clone of one that may be computed, and clearing
succeeds. -/
theorem C131_possible (hs : ∀ J, F J → J.Safe A) (hn : ∀ J, F J → J.NoStore) (s : Conf E Q Ent)
    (h : CloneReachable A C F s) :
    (∀ t ∈ s.threads, ∀ x : Res t.req.Resp, t.code = CProg.lift x → x ≠ .error .fuel →
      x ≠ .error .ub ∧ ∃ m, (CloneMixed A C F m).recloned C t.req x) ∧
    (∀ k b, (k, b) ∈ s.cache → ∃ v : k.stat.Val, b = .val k.stat.ty (C k.stat.ty v) ∧
      ∃ m, CloneMixed A C F m (.stat k.entity k.query k.stat) (.ok (some v))) ∧
    s.cache.clear = .ok [] := by
  obtain ⟨h1, h2⟩ := h.good hs hn
  refine ⟨fun t ht x hx hne => ?_, fun k b hkb => ?_, h1.typed.clear⟩
  · have := h2 t ht
    rw [hx] at this
    have h3 : ∃ m, (CloneMixed A C F m).recloned C t.req x := by
      cases x with
      | ok a => exact this hne
      | error e => exact this hne
    exact ⟨h3.elim fun m hm => recloned_safe (CloneMixed.safe hs m) _ x hm, h3⟩
  · obtain ⟨v, hv, -, hm⟩ := h1 _ hkb
    exact ⟨v, hv, hm⟩

omit [DecidableEq Q] [DecidableEq Ent] in
theorem recloned_id {O : Outcomes E Q Ent} (hC : ∀ u x, C u (C u x) = x) : O.recloned C = O := by
  funext r x
  refine propext ⟨fun h => ?_, Outcomes.recloned_of⟩
  cases r with
  | stat e q s =>
    rcases h with h | ⟨v, hv, rfl⟩
    · exact h
    · rw [hC]; exact hv
  | relation a b q s => exact h
  | attr e a => exact h

omit [DecidableEq Q] [DecidableEq Ent] in
theorem cloneMixed_mixed (hC : ∀ u x, C u (C u x) = x) (n : Nat) :
    CloneMixed A C F n = Mixed A (fun J' => ∃ J, F J ∧ J' = J.cloning C) n := by
  induction n with
  | zero => rfl
  | succ n ih =>
    funext r x
    refine propext ⟨?_, ?_⟩
    · rintro ⟨J, hJ, h⟩
      rw [recloned_id hC, ih] at h
      exact ⟨_, ⟨J, hJ, rfl⟩, h⟩
    · rintro ⟨_, ⟨J, hJ, rfl⟩, h⟩
      refine ⟨J, hJ, ?_⟩
      rw [recloned_id hC, ih]
      exact h

/-- **C131** If cloning twice gives the value back, even if cloning once does not, the cache is as transparent as ever:
each result is the one without a cache, in the world whose registered defaults are the clones. -/
theorem C131_transparent (J : Joined E Q Ent) (hs : J.Safe A) (hn : J.NoStore) (hC : ∀ u x, C u (C u x) = x)
    (s : Conf E Q Ent) (h : CloneReachable A C (· = J) s) :
    ∀ t ∈ s.threads, ∀ x : Res t.req.Resp, t.code = CProg.lift x → x ≠ .error .fuel →
      ∃ m, x = (J.cloning C).answer A m t.req := by
  intro t ht x hx hne
  obtain ⟨-, m, hm⟩ := (C131_possible (F := (· = J)) (by rintro _ rfl; exact hs) (by rintro _ rfl; exact hn) s h).1
    t ht x hx hne
  rw [recloned_id hC, cloneMixed_mixed hC] at hm
  have : (fun J' : Joined E Q Ent => ∃ J₁, J₁ = J ∧ J' = J₁.cloning C) = (· = J.cloning C) := by
    funext J'; simp
  rw [this] at hm
  exact ⟨m, mixed_fixed.1 hm⟩

/-- **C131** So what holds of all results of each querier, provided it holds of all answers to questions of streams,
holds of all results with the cache, if it is kept by cloning twice. -/
theorem C131_invariant (hs : ∀ J, F J → J.Safe A) (hn : ∀ J, F J → J.NoStore) (R : Outcomes E Q Ent)
    (hfuel : ∀ r, R r (.error .fuel)) (hR : ∀ J, F J → ∀ r x, (J.cloning C).May A R r x → R r x)
    (hC : ∀ e q (s : StatInst E) v, R (.stat e q s) (.ok (some v)) → R (.stat e q s) (.ok (some (C s.ty (C s.ty v)))))
    (s : Conf E Q Ent) (h : CloneReachable A C F s) :
    ∀ t ∈ s.threads, ∀ x : Res t.req.Resp, t.code = CProg.lift x → R t.req x := by
  have again : ∀ {O : Outcomes E Q Ent}, (∀ r x, O r x → R r x) → ∀ r x, O.recloned C r x → R r x := by
    intro O hO r x hx
    cases r with
    | stat e q s =>
      rcases hx with hx | ⟨v, hv, rfl⟩
      · exact hO _ x hx
      · exact hC e q s v (hO _ _ hv)
    | relation a b q s => exact hO _ x hx
    | attr e a => exact hO _ x hx
  have key : ∀ n r (x : Res r.Resp), CloneMixed A C F n r x → R r x := by
    intro n
    induction n with
    | zero => rintro r x rfl; exact hfuel r
    | succ n ih => rintro r x ⟨J, hJ, h⟩; exact hR J hJ r x (Joined.May.mono (again ih) h)
  intro t ht x hx
  by_cases hne : x = .error .fuel
  · rw [hne]; exact hfuel _
  · obtain ⟨-, m, hm⟩ := (C131_possible hs hn s h).1 t ht x hx hne
    exact again (key m) _ _ hm

/-! ### run alone -/

omit [DecidableEq Q] [DecidableEq Ent] in
theorem Buf.clonedBy_id : Buf.clonedBy (fun _ x => x : Cloning E) = id := by
  funext b; cases b <;> rfl

/-- **C131** With a `Clone` that copies, everything is as in the rest of the model. -/
theorem C131_copies (J : Joined E Q Ent) (x : CProg E Q Ent α) (c : Cache E Q Ent) :
    J.cloning (fun _ x => x) = J ∧ x.runCloning A (fun _ x => x) c = x.run A c := by
  constructor
  · unfold Joined.cloning
    rw [Buf.clonedBy_id]
    simp
  · induction x generalizing c with
    | ret a => rfl
    | fail e => rfl
    | get k f ih => simp only [CProg.runCloning, CProg.run, Buf.clonedBy_id, Option.map_id, id]; exact ih _ _
    | put k b f ih => simp only [CProg.runCloning, CProg.run, Buf.clonedBy_id, id]; exact ih _
    | clear f ih =>
      simp only [CProg.runCloning, CProg.run]
      cases c.clear with
      | ok c' => exact ih c'
      | error e => rfl

/-- **C131** Running a request to completion, with nothing in between, is one of the interleavings. -/
theorem C131_sequential {s : Conf E Q Ent} (h : CloneReachable A C F s) (n : Nat) (r : Req E Q Ent)
    (c : CProg E Q Ent r.Resp) (hc : MayRun A (fun J' => ∃ J, F J ∧ J' = J.cloning C) n r c) :
    CloneReachable A C F
      ⟨(c.runCloning A C s.cache).2, s.threads ++ [⟨n, r, CProg.lift (c.runCloning A C s.cache).1⟩]⟩ := by
  obtain ⟨cache, ts⟩ := s
  have h := h.step (.start cache ts n r c hc)
  clear hc
  change CloneReachable A C F ⟨(c.runCloning A C cache).2, ts ++ [⟨n, r, CProg.lift (c.runCloning A C cache).1⟩]⟩
  have key : ∀ {γ : Type} (c : CProg E Q Ent γ) (hγ : γ = r.Resp) (cache : Cache E Q Ent),
      CloneReachable A C F ⟨cache, ts ++ [⟨n, r, hγ ▸ c⟩]⟩ →
      CloneReachable A C F
        ⟨(c.runCloning A C cache).2, ts ++ [⟨n, r, CProg.lift (hγ ▸ (c.runCloning A C cache).1)⟩]⟩ := by
    intro γ x hγ c h
    subst hγ
    change CloneReachable A C F ⟨c, ts ++ [⟨n, r, x⟩]⟩ at h
    change CloneReachable A C F ⟨(x.runCloning A C c).2, ts ++ [⟨n, r, CProg.lift (x.runCloning A C c).1⟩]⟩
    have hi : ∀ t : Thread E Q Ent, (ts ++ [t])[ts.length]? = some t := by intro t; simp
    have hset : ∀ t t' : Thread E Q Ent, (ts ++ [t]).set ts.length t' = ts ++ [t'] := by intro t t'; simp
    induction x generalizing c with
    | ret a => exact h
    | fail e => exact h
    | get k f ih =>
      refine ih _ (c := c) ?_
      have := h.step (CloneStep.get c _ ts.length n r k f (hi _))
      rwa [hset] at this
    | put k b f ih =>
      refine ih (c := (HMap.insert (CacheKey.eq A) c k (b.clonedBy C)).1) ?_
      have := h.step (CloneStep.put c _ ts.length n r k b f (hi _))
      rwa [hset] at this
    | clear f ih =>
      simp only [CProg.runCloning]
      cases hc : c.clear with
      | ok c' =>
        refine ih (c := c') ?_
        have := h.step (CloneStep.wipe c c' _ ts.length n r f (hi _) hc)
        rwa [hset] at this
      | error e =>
        have := h.step (CloneStep.wipeFail c e _ ts.length n r f (hi _) hc)
        rwa [hset] at this
  exact key c rfl cache h

theorem CProg.runCloning_bind (x : CProg E Q Ent α) (f : α → CProg E Q Ent β) (c : Cache E Q Ent) :
    (x.bind f).runCloning A C c = match (x.runCloning A C c).1 with
      | .ok a => (f a).runCloning A C (x.runCloning A C c).2
      | .error e => (.error e, (x.runCloning A C c).2) := by
  induction x generalizing c with
  | ret a => rfl
  | fail e => rfl
  | get k g ih => exact ih _ _
  | put k b g ih => exact ih _
  | clear g ih =>
    simp only [CProg.bind, CProg.runCloning]
    cases c.clear with
    | ok c' => exact ih c'
    | error e => rfl

theorem CProg.runCloning_lift (x : Res α) (c : Cache E Q Ent) :
    (CProg.lift x : CProg E Q Ent α).runCloning A C c = (x, c) := by
  cases x <;> rfl

theorem Prog.All.runCloning {P : Res α → Prop} (hP : ∀ e, P (.error e)) (h : Handler E Q Ent) {p : Prog E Q Ent α}
    (hp : p.All P) (c : Cache E Q Ent) : P ((p.interp h).runCloning A C c).1 := by
  induction p generalizing c with
  | ret a => exact hp
  | fail e => exact hp
  | ask r k ih =>
    change P (((h r).bind fun x => (k x).interp h).runCloning A C c).1
    rw [CProg.runCloning_bind]
    cases ((h r).runCloning A C c).1 with
    | ok a => exact ih a (hp a) _
    | error e => exact hP e
  | attempt r k ih =>
    change P (((h r).attempt.bind fun x => (k x).interp h).runCloning A C c).1
    rw [CProg.runCloning_bind]
    cases ((h r).attempt.runCloning A C c).1 with
    | ok a => exact ih a (hp a) _
    | error e => exact hP e
  | clear k ih =>
    change P ((CProg.clear (k.interp h)).runCloning A C c).1
    simp only [CProg.runCloning]
    cases c.clear with
    | ok c' => exact ih hp c'
    | error e => exact hP e
  | store e q p k ih =>
    change P (((CProg.lift p.cloneBuffer).bind fun b => .put ⟨e, q, p.stat⟩ b (k.interp h)).runCloning A C c).1
    rw [CProg.runCloning_bind, CProg.runCloning_lift]
    simp only [Prog.All] at hp
    cases hb : p.cloneBuffer with
    | ok b => rw [hb] at hp; exact ih hp _
    | error e => exact hP e

theorem callsCode_runCloning (h : Handler E Q Ent) {l : List (Call E Q Ent)} (hl : ∀ c ∈ l, c.Safe) {p p' : Pair E}
    (hp : p.Typed) {c : Cache E Q Ent} (hr : ((callsCode h l p).runCloning A C c).1 = .ok p') :
    p'.stat = p.stat ∧ p'.Typed := by
  induction l generalizing p c with
  | nil => cases hr; exact ⟨rfl, hp⟩
  | cons f l ih =>
    simp only [callsCode, CProg.runCloning_bind] at hr
    have h1 := ((hl f (by simp) p hp).mono (R := fun r => ∀ p₁, r = .ok p₁ → p₁.stat = p.stat ∧ p₁.Typed)
      (fun r hr p₁ h => by subst h; exact hr)).runCloning (A := A) (C := C) (fun e p₁ h => by cases h) h c
    cases h2 : (((f p).interp h).runCloning A C c).1 with
    | error e => rw [h2] at hr; cases hr
    | ok p₁ =>
      rw [h2] at hr
      obtain ⟨h3, h4⟩ := h1 p₁ h2
      have := ih (fun c hc => hl c (by simp [hc])) h4 hr
      rwa [h3] at this

theorem statCode_again (K : Joined E Q Ent) (hJs : K.Safe A) (hcd : K.world.cached = true) (h : Handler E Q Ent)
    (g' : Buf E → CProg E Q Ent (Pair E)) (e : Ent) (q : QualifierQuery Q) (s : StatInst E) (c : Cache E Q Ent)
    (v : s.Val) (hget : HMap.get (CacheKey.eq A) c ⟨e, q, s⟩ = none)
    (hr : ((K.statCode A e q s fun b => callsCode h (K.statCalls e q) ⟨s, b⟩).runCloning A C c).1 = .ok (some v)) :
    ((K.statCode A e q s g').runCloning A C
      ((K.statCode A e q s fun b => callsCode h (K.statCalls e q) ⟨s, b⟩).runCloning A C c).2).1 =
        .ok (some (C s.ty (C s.ty v))) := by
  by_cases hst : Storable (E.layout s.ty)
  swap
  · rw [Joined.statCode, validate_eq, if_neg hst] at hr
    cases hr
  have hcode : ∀ g, K.statCode A e q s g = (if K.world.isStat e then
      (K.lookup e q s).bind fun found =>
        match found with
        | some b => .ret (some b)
        | none => ((CProg.lift (K.world.startValue A s)).bind g).bind fun p =>
            (K.remember e q p).bind fun _ => .ret (some p.value)
      else .ret none).bind fun o => CProg.lift (StatMap.readAs s o) := by
    intro g
    rw [Joined.statCode, validate_eq, if_pos hst]
    rfl
  cases he : K.world.isStat e with
  | false =>
    rw [hcode] at hr
    simp only [he, Bool.false_eq_true, if_false] at hr
    cases hr
  | true =>
    simp only [he, if_true] at hcode
    obtain ⟨v0, hv0⟩ := hJs.startValue s hst
    have hlook : K.lookup e q s = .get ⟨e, q, s⟩ fun o => .lift (Defaults.cloned s o) := by
      unfold Joined.lookup; rw [if_pos hcd]
    have hrun : ∀ g : Buf E → CProg E Q Ent (Pair E), (K.statCode A e q s g).runCloning A C c =
        (((g (.val s.ty v0)).bind fun p => (K.remember e q p).bind fun _ =>
          CProg.lift (StatMap.readAs s (some p.value))).runCloning A C c) := by
      intro g
      rw [hcode, hlook, hv0]
      change ((CProg.bind (CProg.lift (Defaults.cloned s (Option.map _ (HMap.get (CacheKey.eq A) c ⟨e, q, s⟩)))) _).bind
        _).runCloning A C c = _
      rw [hget]
      simp only [Option.map_none, Defaults.cloned, CProg.lift_ok, CProg.bind_ret, CProg.bind_assoc]
    rw [hrun] at hr ⊢
    rw [CProg.runCloning_bind] at hr ⊢
    cases hp : ((callsCode h (K.statCalls e q) ⟨s, .val s.ty v0⟩).runCloning A C c).1 with
    | error x => simp only [hp] at hr; cases hr
    | ok p =>
      simp only [hp] at hr ⊢
      have h2 := callsCode_runCloning h (hJs.statCalls e q) (p := ⟨s, .val s.ty v0⟩) ⟨v0, rfl⟩ hp
      generalize ((callsCode h (K.statCalls e q) ⟨s, .val s.ty v0⟩).runCloning A C c).2 = c₁ at hr ⊢
      obtain ⟨s', b⟩ := p
      obtain ⟨h3, w, hw⟩ := h2
      change s' = s at h3
      subst h3
      change s'.Val at w
      change b = .val s'.ty w at hw
      subst hw
      simp only [Joined.remember_eq hst, hcd, if_true, CProg.bind_put, CProg.bind_ret, CProg.runCloning,
        readAs_val hst, CProg.lift_ok] at hr ⊢
      cases hr
      rw [hcode, hlook]
      change (((CProg.bind (CProg.lift (Defaults.cloned s'
        (Option.map (Buf.clonedBy C) (HMap.get (CacheKey.eq A) _ ⟨e, q, s'⟩)))) _).bind
        _).runCloning A C _).1 = _
      rw [HMap.get_insert (CacheKey.eq_iff A), if_pos rfl]
      simp only [Option.map_some, Buf.clonedBy]
      rw [show Defaults.cloned s' (some (Buf.val s'.ty (C s'.ty (C s'.ty v)))) =
        .ok (some (.val s'.ty (C s'.ty (C s'.ty v)))) from by simp [Defaults.cloned, vtClone_val hst]]
      simp only [CProg.lift_ok, CProg.bind_ret, readAs_val hst, CProg.runCloning]

/-- **C131** Exactly: where the cache holds nothing for a query, and the query returns a value, asking again returns
the clone of the clone of that value. -/
theorem C131_again (J : Joined E Q Ent) (hs : J.Safe A) (hc : J.world.cached = true) (n m : Nat) (e : Ent)
    (q : QualifierQuery Q) (s : StatInst E) (c : Cache E Q Ent) (v : s.Val)
    (hget : HMap.get (CacheKey.eq A) c ⟨e, q, s⟩ = none)
    (hr : (((J.cloning C).handle A (n + 1) (.stat e q s)).runCloning A C c).1 = .ok (some v)) :
    (((J.cloning C).handle A (m + 1) (.stat e q s)).runCloning A C
      (((J.cloning C).handle A (n + 1) (.stat e q s)).runCloning A C c).2).1 = .ok (some (C s.ty (C s.ty v))) := by
  have hh : ∀ k, (J.cloning C).handle A (k + 1) (.stat e q s) = (J.cloning C).statCode A e q s
      (fun v => callsCode ((J.cloning C).handle A k) ((J.cloning C).statCalls e q) ⟨s, v⟩) := fun k =>
    ((J.cloning C).statCode_eq (A := A) ((J.cloning C).handle A k) e q s).symm
  rw [hh n] at hr ⊢
  rw [hh m]
  exact statCode_again (C := C) (J.cloning C) hs.cloning hc ((J.cloning C).handle A n) _ e q s c v hget hr

/-- **C131** So that a query can be repeated with the same result, cloning twice has to give back the values that
queries return, and that is enough. -/
theorem C131_again_iff (J : Joined E Q Ent) (hs : J.Safe A) (hc : J.world.cached = true) (n m : Nat) (e : Ent)
    (q : QualifierQuery Q) (s : StatInst E) (c : Cache E Q Ent) (v : s.Val)
    (hget : HMap.get (CacheKey.eq A) c ⟨e, q, s⟩ = none)
    (hr : (((J.cloning C).handle A (n + 1) (.stat e q s)).runCloning A C c).1 = .ok (some v)) :
    (((J.cloning C).handle A (m + 1) (.stat e q s)).runCloning A C
      (((J.cloning C).handle A (n + 1) (.stat e q s)).runCloning A C c).2).1 = .ok (some v) ↔
        C s.ty (C s.ty v) = v := by
  rw [C131_again J hs hc n m e q s c v hget hr]
  constructor
  · intro h
    exact Option.some.inj (Except.ok.inj h)
  · intro h; rw [h]

end

/-! ### defaults and maps -/

/-- **C131** A query starts from the clone of the registered default, or else from the default of the value type,
which is not cloned. -/
theorem C131_defaults (J : Joined E Q Ent) (hs : J.Safe A) (s : StatInst E) (hst : Storable (E.layout s.ty)) :
    (J.cloning C).world.startValue A s = .ok (.val s.ty
      (match (J.world.defaults.bind fun d => HMap.get (StatInst.eq A) d s) with
        | some (.val u x) => if h : u = s.ty then C s.ty (h ▸ x) else s.sv.default
        | _ => s.sv.default)) := by
  have hd : vtDefault s.vt = .ok (.val s.ty s.sv.default) := by
    have : Storable (E.layout (E.valTy s.vt)) := hst
    simp [vtDefault, Buf.from_eq, this]
  unfold World.startValue World.registered Joined.cloning
  cases h : J.world.defaults with
  | none => simp [hd]
  | some d =>
    simp only [Option.map_some, Option.bind_some, Defaults.getDyn, hd, HMap.get_map]
    cases hg : HMap.get (StatInst.eq A) d s with
    | none => simp [Defaults.cloned]
    | some b =>
      obtain ⟨v, rfl, -⟩ := hs.defaults d h s b hg
      simp [Defaults.cloned, Buf.clonedBy, vtClone_val hst]

/-- **C131** The clone of a `StatMap` has the same keys in the same order, and holds the clone of each value. -/
theorem C131_map [DecidableEq Q] [Ord Q] [Std.TransOrd Q] [Std.LawfulEqOrd Q] (h : List (MapOp E Q))
    (m : StatMap E Q) (hm : StatMap.run A h = .ok m) :
    ∃ m', m.cloneBy C = .ok m' ∧ m'.map Entry.key = m.map Entry.key ∧
      ∀ q s, ∃ o, StatMap.get A m q s = .ok o ∧ StatMap.get A m' q s = .ok (o.map (C s.ty)) := by
  obtain ⟨a, -, r⟩ := reachRep A hm
  have hk : (m.map fun e => { e with buf := e.buf.clonedBy C }).map Entry.key = m.map Entry.key := by
    rw [List.map_map]; rfl
  have hl : ∀ (l : StatMap E Q) k, Vec.lookup (l.map fun e => { e with buf := e.buf.clonedBy C }) k =
      (Vec.lookup l k).map (Buf.clonedBy C) := by
    intro l k
    unfold Vec.lookup
    rw [List.find?_map, Option.map_map, Option.map_map]
    rfl
  have r' : Rep A (m.map fun e => { e with buf := e.buf.clonedBy C }) (fun k => (a k).map (C k.stat.ty)) := by
    refine ⟨?_, fun k => ?_, fun k hk => r.storable k (by simpa using hk)⟩
    · have := r.sorted
      unfold Vec.Sorted at this ⊢
      rw [hk]
      exact this
    · rw [hl, r.holds]
      cases a k <;> rfl
  exact ⟨_, by simp [StatMap.cloneBy, r.clone], hk, fun q s => ⟨a ⟨s, q⟩, r.get q s, r'.get q s⟩⟩

/-! ### examples -/

/-- a `Clone` of integer stats that adds one, and of flags that copies -/
def demoTick : Cloning demo := fun u => match u with
  | true => fun x : StatInt => { x with addend := x.addend + 1 }
  | false => fun x => x

/-- a `Clone` that changes the sign, and back when done twice -/
def demoSign : Cloning demo := fun u => match u with
  | true => fun x : StatInt => { x with addend := -x.addend }
  | false => fun x => x

theorem demoSign_twice (u : Bool) (x : demo.El u) : demoSign u (demoSign u x) = x := by
  cases u with
  | false => rfl
  | true =>
    change StatInt at x
    change ({ x with addend := - -x.addend } : StatInt) = x
    rw [neg_neg]

/-- **C131**, refuted for all `Clone`s: the same query twice, with nothing in between, gives two results. -/
theorem C131_refuted : ∃ (C : Cloning demo) (J : Joined demo (BitVec 8) Nat) (r : Req demo (BitVec 8) Nat),
    J.Safe demoAddr ∧ J.NoStore ∧
    (((J.cloning C).handle demoAddr 1 r).runCloning demoAddr C []).1 = (J.cloning C).answer demoAddr 1 r ∧
    (((J.cloning C).handle demoAddr 1 r).runCloning demoAddr C
      (((J.cloning C).handle demoAddr 1 r).runCloning demoAddr C []).2).1 ≠
        (((J.cloning C).handle demoAddr 1 r).runCloning demoAddr C []).1 := by
  refine ⟨demoTick, demoShared 1, .stat 1 demoQ (demoInt 0), demoShared_safe 1, demoShared_noStore 1, rfl, ?_⟩
  intro h
  have h1 : ((((demoShared 1).cloning demoTick).handle demoAddr 1 (.stat 1 demoQ (demoInt 0))).runCloning demoAddr
    demoTick []).1 = (.ok (some ⟨1, -2147483648, 2147483647, 1⟩) : Res (Option StatInt)) := rfl
  have h2 := (C131_again_iff (demoShared 1) (demoShared_safe 1) rfl 0 0 1 demoQ (demoInt 0) [] _ rfl h1).1 (h.trans h1)
  cases h2

/-- three results in a row: 1, then 3, and 4 for the entity that asks for it (1 of its own and 3) -/
example : ∃ c c' : Cache demo (BitVec 8) Nat,
    (((demoShared 1).cloning demoTick).handle demoAddr 1 (.stat 1 demoQ (demoInt 0))).runCloning demoAddr demoTick [] =
      ((.ok (some ⟨1, -2147483648, 2147483647, 1⟩) : Res (Option StatInt)), c) ∧
    (((demoShared 1).cloning demoTick).handle demoAddr 1 (.stat 1 demoQ (demoInt 0))).runCloning demoAddr demoTick c =
      ((.ok (some ⟨3, -2147483648, 2147483647, 1⟩) : Res (Option StatInt)), c) ∧
    (((demoShared 1).cloning demoTick).handle demoAddr 2 (.stat 0 demoQ (demoInt 0))).runCloning demoAddr demoTick c =
      ((.ok (some ⟨4, -2147483648, 2147483647, 1⟩) : Res (Option StatInt)), c') :=
  ⟨_, _, rfl, rfl, rfl⟩

/-- such a run is one of the interleavings, and its second result the clone of a clone of what is computed -/
example : ∃ s : Conf demo (BitVec 8) Nat, CloneReachable demoAddr demoTick (· = demoShared 1) s ∧
    s.threads = [⟨1, .stat 1 demoQ (demoInt 0),
      CProg.lift (.ok (some ⟨1, -2147483648, 2147483647, 1⟩) : Res (Option StatInt))⟩,
    ⟨2, .stat 1 demoQ (demoInt 0),
      CProg.lift (.ok (some ⟨3, -2147483648, 2147483647, 1⟩) : Res (Option StatInt))⟩] := by
  refine ⟨_, C131_sequential (C131_sequential .init 1 (.stat 1 demoQ (demoInt 0)) _
    (C124_includes ((demoShared 1).cloning demoTick) ⟨_, rfl, rfl⟩ _ _)) 2 (.stat 1 demoQ (demoInt 0)) _
    (C124_includes ((demoShared 1).cloning demoTick) ⟨_, rfl, rfl⟩ _ _), rfl⟩

/-- with a `Clone` that only gives values back when done twice, results are those without a cache -/
example (s : Conf demo (BitVec 8) Nat) (h : CloneReachable demoAddr demoSign (· = demoShared 1) s) :
    ∀ t ∈ s.threads, ∀ x : Res t.req.Resp, t.code = CProg.lift x → x ≠ .error .fuel →
      ∃ m, x = ((demoShared 1).cloning demoSign).answer demoAddr m t.req :=
  C131_transparent (demoShared 1) (demoShared_safe 1) (demoShared_noStore 1) demoSign_twice s h

/-- whatever is cloned, entities from 2 on have no stats -/
example (s : Conf demo (BitVec 8) Nat) (h : CloneReachable demoAddr demoTick (· = demoShared 1) s) :
    ∀ t ∈ s.threads, ∀ x : Res t.req.Resp, t.code = CProg.lift x → match t.req, x with
      | .stat e _ _, .ok x => 2 ≤ e → x = none
      | _, _ => True := by
  refine C131_invariant (by rintro _ rfl; exact demoShared_safe 1) (by rintro _ rfl; exact demoShared_noStore 1)
    (fun r x => match r, x with
      | .stat e _ _, .ok x => 2 ≤ e → x = none
      | _, _ => True) (fun r => by cases r <;> trivial) ?_ (fun e q s v h he => by cases h he) s h
  rintro _ rfl r x h
  cases r with
  | relation a b q s => trivial
  | attr e a => trivial
  | stat e q s =>
    cases x with
    | error y => trivial
    | ok x =>
      intro he
      rcases h with ⟨u, -, h⟩ | ⟨y, -, h⟩
      · have : ((demoShared 1).cloning demoTick).world.isStat e = false := by
          change (e == 0 || e == 1) = false
          rw [beq_false_of_ne (by omega), beq_false_of_ne (by omega)]; rfl
        simp only [this] at h
        exact Except.ok.inj h
      · cases h

/-- a registered default of 5 is read as 6 -/
example : (({ demoShared 1 with world := { (demoShared 1).world with
      defaults := some [(demoInt 0, .val true ⟨5, -10, 10, 1⟩)] } }).cloning demoTick).world.startValue demoAddr
        (demoInt 0) = .ok (.val true ⟨6, -10, 10, 1⟩) := rfl

/-- a map with one integer and one flag value -/
example : StatMap.cloneBy demoTick [⟨demoInt 0, ⟨0, 4⟩, .val true ⟨5, -10, 10, 1⟩⟩, ⟨demoFlag 0, ⟨0, 4⟩, .val false ⟨3, 0⟩⟩] =
    .ok ([⟨demoInt 0, ⟨0, 4⟩, .val true ⟨6, -10, 10, 1⟩⟩, ⟨demoFlag 0, ⟨0, 4⟩, .val false ⟨3, 0⟩⟩] :
      StatMap demo (BitVec 8)) := rfl

end BSQ
