import Verif.Spec.Reach
import Verif.Props.Cache
/-! C110: a change reaches only the requests that depend on it, also through a cache that is not cleared -/
universe u v
namespace BSQ
set_option linter.unusedSectionVars false
variable {E : Env} {Q Ent α : Type}

/-! ### code that asks certain questions only -/

theorem Prog.Asks.of_mayAsk {R : Req E Q Ent → Prop} {p : Prog E Q Ent α} (h : ∀ r, p.MayAsk r → R r) : p.Asks R := by
  induction p with
  | ret a => trivial
  | fail e => trivial
  | ask r k ih => exact ⟨h r (.inl rfl), fun x => ih x fun r' hr => h r' (.inr ⟨x, hr⟩)⟩
  | attempt r k ih => exact ⟨h r (.inl rfl), fun x => ih x fun r' hr => h r' (.inr ⟨x, hr⟩)⟩
  | clear k ih => exact ih h
  | store e q p k ih => exact ih h

theorem Prog.Asks.eval_congr {R : Req E Q Ent → Prop} {o o' : Oracle E Q Ent} (h : ∀ r, R r → o r = o' r)
    {p : Prog E Q Ent α} (hp : p.Asks R) : p.eval o = p.eval o' := by
  induction p with
  | ret a => rfl
  | fail e => rfl
  | ask r k ih =>
    simp only [Prog.eval, h r hp.1]
    congr; funext x; exact ih x (hp.2 x)
  | attempt r k ih =>
    simp only [Prog.eval, h r hp.1]
    congr; funext x; exact ih x (hp.2 x)
  | clear k ih => exact ih hp
  | store e q p k ih =>
    simp only [Prog.eval]
    congr; funext x; exact ih hp

theorem runCalls_congr {R : Req E Q Ent → Prop} {o o' : Oracle E Q Ent} (h : ∀ r, R r → o r = o' r)
    {l : List (Call E Q Ent)} (hl : ∀ c ∈ l, ∀ p, (c p).Asks R) (p : Pair E) : runCalls o l p = runCalls o' l p := by
  induction l generalizing p with
  | nil => rfl
  | cons c l ih =>
    simp only [runCalls, (hl c List.mem_cons_self p).eval_congr h]
    congr; funext p'; exact ih (fun c hc => hl c (List.mem_cons_of_mem _ hc)) p'

theorem anyCalls_congr {R : Req E Q Ent → Prop} {o o' : Oracle E Q Ent} (h : ∀ r, R r → o r = o' r)
    {l : List (Prog E Q Ent Bool)} (hl : ∀ c ∈ l, c.Asks R) : anyCalls o l = anyCalls o' l := by
  induction l with
  | nil => rfl
  | cons c l ih =>
    simp only [anyCalls, (hl c List.mem_cons_self).eval_congr h]
    congr; funext b
    rw [ih fun c hc => hl c (List.mem_cons_of_mem _ hc)]

theorem Prog.Asks.interp_congr {R : Req E Q Ent → Prop} {h h' : Handler E Q Ent} (hh : ∀ r, R r → h r = h' r)
    {p : Prog E Q Ent α} (hp : p.Asks R) : p.interp h = p.interp h' := by
  induction p with
  | ret a => rfl
  | fail e => rfl
  | ask r k ih =>
    simp only [Prog.interp, hh r hp.1]
    congr; funext x; exact ih x (hp.2 x)
  | attempt r k ih =>
    simp only [Prog.interp, hh r hp.1]
    congr; funext x; exact ih x (hp.2 x)
  | clear k ih => simp only [Prog.interp, ih hp]
  | store e q p k ih => simp only [Prog.interp, ih hp]

theorem callsCode_congr {R : Req E Q Ent → Prop} {h h' : Handler E Q Ent} (hh : ∀ r, R r → h r = h' r)
    {l : List (Call E Q Ent)} (hl : ∀ c ∈ l, ∀ p, (c p).Asks R) (p : Pair E) : callsCode h l p = callsCode h' l p := by
  induction l generalizing p with
  | nil => rfl
  | cons c l ih =>
    simp only [callsCode, (hl c List.mem_cons_self p).interp_congr hh]
    congr; funext p'; exact ih (fun c hc => hl c (List.mem_cons_of_mem _ hc)) p'

theorem anyCode_congr {R : Req E Q Ent → Prop} {h h' : Handler E Q Ent} (hh : ∀ r, R r → h r = h' r)
    {l : List (Prog E Q Ent Bool)} (hl : ∀ c ∈ l, c.Asks R) : anyCode h l = anyCode h' l := by
  induction l with
  | nil => rfl
  | cons c l ih =>
    simp only [anyCode, (hl c List.mem_cons_self).interp_congr hh]
    congr; funext b
    rw [ih fun c hc => hl c (List.mem_cons_of_mem _ hc)]

/-! ### two queriers that agree on some requests -/

/-- for a request of `R` both queriers look at the same things, and only ask such requests -/
structure AgreeOn (A : Addr E) (J J' : Joined E Q Ent) (R : Req E Q Ent → Prop) : Prop where
  stat : ∀ e q s, R (.stat e q s) → J'.world.isStat e = J.world.isStat e ∧
    J'.world.startValue A s = J.world.startValue A s ∧ J'.statCalls e q = J.statCalls e q ∧
    ∀ c ∈ J.statCalls e q, ∀ p, (c p).Asks R
  relation : ∀ a b q s, R (.relation a b q s) → J'.world.isStat a = J.world.isStat a ∧
    J'.world.isStat b = J.world.isStat b ∧
    J'.world.startValue A s = J.world.startValue A s ∧ J'.relationCalls a b q = J.relationCalls a b q ∧
    ∀ c ∈ J.relationCalls a b q, ∀ p, (c p).Asks R
  attr : ∀ e a, R (.attr e a) → J'.attrCalls e a = J.attrCalls e a ∧ ∀ c ∈ J.attrCalls e a, c.Asks R

namespace AgreeOn
variable {A : Addr E} {J J' : Joined E Q Ent} {R : Req E Q Ent → Prop}

theorem self (h : AgreeOn A J J' R) : AgreeOn A J' J' R where
  stat e q s hr := ⟨rfl, rfl, rfl, by rw [(h.stat e q s hr).2.2.1]; exact (h.stat e q s hr).2.2.2⟩
  relation a b q s hr := ⟨rfl, rfl, rfl, rfl, by
    rw [(h.relation a b q s hr).2.2.2.1]; exact (h.relation a b q s hr).2.2.2.2⟩
  attr e a hr := ⟨rfl, by rw [(h.attr e a hr).1]; exact (h.attr e a hr).2⟩

theorem answer (h : AgreeOn A J J' R) (n : Nat) (r : Req E Q Ent) (hr : R r) : J'.answer A n r = J.answer A n r := by
  induction n generalizing r with
  | zero => rfl
  | succ n ih =>
    rw [J.answer_succ, J'.answer_succ]
    cases r with
    | stat e q s =>
      obtain ⟨h1, h2, h3, h4⟩ := h.stat e q s hr
      simp only [Joined.ideal, h1, h2, h3, runCalls_congr ih h4]
    | relation a b q s =>
      obtain ⟨h1, h1', h2, h3, h4⟩ := h.relation a b q s hr
      simp only [Joined.ideal, h1, h1', h2, h3, runCalls_congr ih h4]
    | attr e a =>
      obtain ⟨h1, h2⟩ := h.attr e a hr
      simp only [Joined.ideal, h1]
      exact anyCalls_congr ih h2

theorem valid (h : AgreeOn A J J' R) {k : CacheKey E Q Ent} {b : Buf E} (hk : R (.stat k.entity k.query k.stat)) :
    ValidEntry A J' k b ↔ ValidEntry A J k b := by
  unfold ValidEntry
  simp only [h.answer _ _ hk]

end AgreeOn

/-! ### caches that are partly stale -/

theorem CProg.Good.both {okGet : CacheKey E Q Ent → Option (Buf E) → Prop} {okPut : CacheKey E Q Ent → Buf E → Prop}
    {P P' : Res α → Prop} {x : CProg E Q Ent α} (h : CProg.Good okGet okPut P x) (h' : CProg.Good okGet okPut P' x) :
    CProg.Good okGet okPut (fun r => P r ∧ P' r) x := by
  induction x with
  | ret a => exact ⟨h, h'⟩
  | fail e => exact ⟨h, h'⟩
  | get k g ih => exact fun o ho => ih o (h o ho) (h' o ho)
  | put k b g ih => exact ⟨h.1, ih h.2 h'.2⟩
  | clear g ih => exact ih h h'

theorem CallsOk.of_noStore {okPut : CacheKey E Q Ent → Buf E → Prop} {o : Nat → Oracle E Q Ent}
    {l : List (Call E Q Ent)} (hl : ∀ c ∈ l, ∀ p, (c p).NoStore) (p : Pair E) : CallsOk okPut o l p := by
  induction l generalizing p with
  | nil => trivial
  | cons c l ih =>
    exact ⟨(hl c List.mem_cons_self p).storesOk, fun _ p' _ => ih (fun c hc => hl c (List.mem_cons_of_mem _ hc)) p'⟩

theorem Faith.map_ok {β γ : Type} {X : Nat → Res β} {Y : Nat → Res γ} {f : β → Res γ} {n : Nat} {b : β} {c : γ}
    (hb : ∀ m, Y m = X m >>= f) (h : Faith X n (.ok b)) (hf : f b = .ok c) : Faith Y n (.ok c) := by
  refine ⟨fun hne => ?_, fun _ => ?_⟩
  · have : X n ≠ .error .fuel := fun hx => hne (by rw [hb, hx]; rfl)
    rw [hb, ← h.1 this]; exact hf.symm
  · obtain ⟨m, hm⟩ := h.2 (by simp)
    exact ⟨m, by rw [hb, hm]; exact hf⟩

theorem Faith.map_error {β γ : Type} {X : Nat → Res β} {Y : Nat → Res γ} {f : β → Res γ} {n : Nat} {x : Err}
    (hb : ∀ m, Y m = X m >>= f) (h : Faith X n (.error x)) : Faith Y n (.error x) := by
  refine ⟨fun hne => ?_, fun hne => ?_⟩
  · have : X n ≠ .error .fuel := fun hx => hne (by rw [hb, hx]; rfl)
    rw [hb, ← h.1 this]; rfl
  · obtain ⟨m, hm⟩ := h.2 (fun h' => hne (by cases h'; rfl))
    exact ⟨m, by rw [hb, hm]; rfl⟩

section stale
variable {A : Addr E} {J : Joined E Q Ent} {R : Req E Q Ent → Prop}

/-- the value has the type of its stat, and is right if its request is one of `R` -/
def FreshEntry (A : Addr E) (J : Joined E Q Ent) (R : Req E Q Ent → Prop) (k : CacheKey E Q Ent) (b : Buf E) : Prop :=
  TypedEntry k b ∧ (R (.stat k.entity k.query k.stat) → ValidEntry A J k b)

def FreshGet (A : Addr E) (J : Joined E Q Ent) (R : Req E Q Ent → Prop) (k : CacheKey E Q Ent)
    (o : Option (Buf E)) : Prop := ∀ b, o = some b → FreshEntry A J R k b

/-- answers to the requests of `R` only -/
def onlyOn (R : Req E Q Ent → Prop) [DecidablePred R] (o : Oracle E Q Ent) : Oracle E Q Ent :=
  fun r => if R r then o r else .error .panic

def onlyOnCode (R : Req E Q Ent → Prop) [DecidablePred R] (h : Handler E Q Ent) : Handler E Q Ent :=
  fun r => if R r then h r else .fail .panic

theorem Faith.calls_on [DecidablePred R] {okGet : CacheKey E Q Ent → Option (Buf E) → Prop}
    {okPut : CacheKey E Q Ent → Buf E → Prop} {o : Nat → Oracle E Q Ent} {h : Handler E Q Ent} {n : Nat}
    (ho : ∀ r, DepthMono (fun n => o n r))
    (hh : ∀ r, R r → CProg.Good okGet okPut (Faith (fun m => o m r) n) (h r)) {l : List (Call E Q Ent)}
    (hl : ∀ c ∈ l, ∀ p, (c p).Asks R) (hn : ∀ c ∈ l, ∀ p, (c p).NoStore) (p : Pair E) :
    CProg.Good okGet okPut (Faith (fun m => runCalls (o m) l p) n) (callsCode h l p) := by
  have h1 : ∀ m, runCalls (o m) l p = runCalls (onlyOn R (o m)) l p := fun m =>
    runCalls_congr (R := R) (fun r hr => by simp [onlyOn, hr]) hl p
  have h2 : callsCode h l p = callsCode (onlyOnCode R h) l p :=
    callsCode_congr (R := R) (fun r hr => by simp [onlyOnCode, hr]) hl p
  simp only [h1, h2]
  refine Faith.calls (o := fun m => onlyOn R (o m)) (fun r => ?_) (fun r => ?_) l p (.of_noStore hn p)
  · by_cases hr : R r
    · simp only [onlyOn, hr, if_true]; exact ho r
    · simp only [onlyOn, hr, if_false]; exact .const _
  · by_cases hr : R r
    · simp only [onlyOn, onlyOnCode, hr, if_true]; exact hh r hr
    · simp only [onlyOn, onlyOnCode, hr, if_false]; exact Faith.self (fun _ => .error .panic) n

theorem Faith.any_on [DecidablePred R] {okGet : CacheKey E Q Ent → Option (Buf E) → Prop}
    {okPut : CacheKey E Q Ent → Buf E → Prop} {o : Nat → Oracle E Q Ent} {h : Handler E Q Ent} {n : Nat}
    (ho : ∀ r, DepthMono (fun n => o n r))
    (hh : ∀ r, R r → CProg.Good okGet okPut (Faith (fun m => o m r) n) (h r)) {l : List (Prog E Q Ent Bool)}
    (hl : ∀ c ∈ l, c.Asks R) (hn : ∀ c ∈ l, c.NoStore) :
    CProg.Good okGet okPut (Faith (fun m => anyCalls (o m) l) n) (anyCode h l) := by
  have h1 : ∀ m, anyCalls (o m) l = anyCalls (onlyOn R (o m)) l := fun m =>
    anyCalls_congr (R := R) (fun r hr => by simp [onlyOn, hr]) hl
  have h2 : anyCode h l = anyCode (onlyOnCode R h) l :=
    anyCode_congr (R := R) (fun r hr => by simp [onlyOnCode, hr]) hl
  simp only [h1, h2]
  refine Faith.any (o := fun m => onlyOn R (o m)) (fun r => ?_) (fun r => ?_) l (fun c hc => (hn c hc).storesOk)
  · by_cases hr : R r
    · simp only [onlyOn, hr, if_true]; exact ho r
    · simp only [onlyOn, hr, if_false]; exact .const _
  · by_cases hr : R r
    · simp only [onlyOn, onlyOnCode, hr, if_true]; exact hh r hr
    · simp only [onlyOn, onlyOnCode, hr, if_false]; exact Faith.self (fun _ => .error .panic) n

/-- code of a querier on a cache that is right for the requests of `R` -/
theorem Joined.Safe.staleCode (hJ : J.Safe A) (hn : J.NoStore) (hR : AgreeOn A J J R) (n : Nat) (r : Req E Q Ent) :
    CProg.Good (FreshGet A J R) (FreshEntry A J R)
      (fun x => ErrIn (· ≠ .ub) x ∧ (R r → Faith (fun m => J.answer A m r) n x)) (J.handle A n r) := by
  classical
  have hval : ∀ l, ErrIn (· ≠ .ub) (validate l) := by
    intro l
    rw [validate_eq]
    split <;> simp [ErrIn]
  have hst : ∀ {l : Layout}, validate l = .ok () → Storable l := by
    intro l hv
    rw [validate_eq] at hv
    by_contra hs
    simp [hs] at hv
  induction n generalizing r with
  | zero => exact ⟨by simp [ErrIn], fun _ => ⟨fun h => absurd rfl h, fun h => absurd rfl h⟩⟩
  | succ n ih =>
    have ih1 : ∀ r, CProg.Good (FreshGet A J R) (FreshEntry A J R) (ErrIn (· ≠ .ub)) (J.handle A n r) :=
      fun r => (ih r).mono fun _ h => h.1
    have ih2 : ∀ r, R r → CProg.Good (FreshGet A J R) (FreshEntry A J R) (Faith (fun m => J.answer A m r) n)
        (J.handle A n r) := fun r hr => (ih r).mono fun _ h => h.2 hr
    refine CProg.Good.mono (P := fun x => ErrIn (· ≠ .ub) x ∧ (R r → Faith (fun m => J.answer A (m + 1) r) n x)) ?_
      (fun _ h => ⟨h.1, fun hr => (h.2 hr).shift⟩)
    cases r with
    | stat e q s =>
      change CProg.Good _ _ _ ((CProg.lift (validate (E.layout s.ty))).bind fun _ => _)
      have hlift : CProg.Good (FreshGet A J R) (FreshEntry A J R) (fun x => x = validate (E.layout s.ty))
          (CProg.lift (validate (E.layout s.ty)) : CProg E Q Ent Unit) := CProg.Good.lift rfl
      refine hlift.bind (fun u hu => ?_) (fun x hx => ⟨by
        have := hval (E.layout s.ty); rw [← hx] at this; exact this, fun _ => ?_⟩)
      swap
      · have : ∀ m, J.answer A (m + 1) (.stat e q s) = .error x := by
          intro m
          rw [J.answer_succ]
          simp only [Joined.ideal]
          rw [← hx]; rfl
        simp only [this]
        exact Faith.self (fun _ => .error x) n
      have hs := hst hu.symm
      unfold Joined.queryStatErased
      cases he : J.world.isStat e with
      | false =>
        refine ⟨trivial, fun _ => ?_⟩
        have : ∀ m, J.answer A (m + 1) (.stat e q s) = .ok none := by
          intro m
          rw [J.answer_succ]
          simp only [Joined.ideal, he]
          rw [← hu]; rfl
        simp only [this]
        exact Faith.self (fun _ => .ok none) n
      | true =>
        simp only [Joined.answer_body hs he]
        have hmiss : CProg.Good (FreshGet A J R) (FreshEntry A J R)
            (fun x => ErrIn (· ≠ .ub) x ∧ (R (.stat e q s) → Faith (J.body A e q s) n x))
            ((J.miss A (J.handle A n) e q s).bind fun o => CProg.lift (StatMap.readAs s o)) := by
          unfold Joined.miss
          simp only [CProg.bind_eq, CProg.bind_assoc]
          rw [J.compute_eq]
          obtain ⟨v0, hv0⟩ := hJ.startValue s hs
          rw [hv0]
          simp only [CProg.lift_ok, CProg.bind_ret]
          have hsafe := callsCode_safe (hJ.statCalls e q) (p := ⟨s, .val s.ty v0⟩) ⟨v0, rfl⟩ ih1
            (X := (· ≠ .ub)) (fun _ h => h) (fun c hc p => .inr (hn.stat e q c hc p))
          have hfaith : CProg.Good (FreshGet A J R) (FreshEntry A J R)
              (fun x => R (.stat e q s) →
                Faith (fun m => runCalls (J.answer A m) (J.statCalls e q) ⟨s, .val s.ty v0⟩) n x)
              (callsCode (J.handle A n) (J.statCalls e q) ⟨s, .val s.ty v0⟩) := by
            by_cases hr : R (.stat e q s)
            · exact (Faith.calls_on (fun r => answer_mono r) ih2 (hR.stat e q s hr).2.2.2 (hn.stat e q) _).mono
                fun _ h _ => h
            · exact hsafe.mono fun _ _ h => absurd h hr
          have hb : ∀ m, J.body A e q s m = (runCalls (J.answer A m) (J.statCalls e q) ⟨s, .val s.ty v0⟩ >>= fun p =>
              p.value.read s.ty >>= fun x => .ok (some x)) := by
            intro m; unfold Joined.body; rw [hv0]; rfl
          refine (hsafe.both hfaith).bind (fun p hp => ?_) (fun x hx => ⟨hx.1, fun hr => (hx.2 hr).map_error hb⟩)
          · obtain ⟨⟨hss, v, hv⟩, hf⟩ := hp
            obtain ⟨s', b⟩ := p
            change s' = s at hss
            subst hss
            change s'.Val at v
            change b = .val s'.ty v at hv
            subst hv
            have hbody : R (.stat e q s') → Faith (J.body A e q s') n (.ok (some v)) := by
              intro hr
              refine (hf hr).map_ok hb ?_
              change (Buf.read s'.ty (.val s'.ty v) >>= _) = _
              rw [Buf.read_val hs]; rfl
            have hread : CProg.Good (FreshGet A J R) (FreshEntry A J R)
                (fun x => ErrIn (· ≠ .ub) x ∧ (R (.stat e q s') → Faith (J.body A e q s') n x))
                (CProg.lift (StatMap.readAs s' (some (.val s'.ty v))) : CProg E Q Ent _) := by
              rw [readAs_val hs]
              exact ⟨trivial, hbody⟩
            rw [Joined.remember_eq hs]
            cases hc : J.world.cached with
            | false => exact hread
            | true =>
              refine ⟨⟨⟨v, rfl, hs⟩, fun hr => ⟨v, rfl, hs, ?_⟩⟩, hread⟩
              obtain ⟨m, hm⟩ := (hbody hr).2 (by simp)
              exact ⟨m + 1, (Joined.answer_body hs he m).trans hm⟩
        simp only [if_true, CProg.bind_eq, CProg.bind_assoc]
        unfold Joined.lookup
        cases hc : J.world.cached with
        | false =>
          simp only [Bool.false_eq_true, if_false, CProg.bind_ret]
          exact hmiss
        | true =>
          simp only [if_true, CProg.bind_get]
          intro o ho
          cases o with
          | none =>
            simp only [Defaults.cloned, CProg.lift_ok, CProg.bind_ret]
            exact hmiss
          | some b =>
            obtain ⟨⟨v, rfl, -⟩, hvalid⟩ := ho b rfl
            change s.Val at v
            have hc : Defaults.cloned s (some (.val s.ty v)) = .ok (some (.val s.ty v)) := by
              simp [Defaults.cloned, vtClone_val hs]
            change CProg.Good _ _ _ ((CProg.lift (Defaults.cloned s (some (.val s.ty v)))).bind _)
            rw [hc]
            simp only [CProg.lift_ok, CProg.bind_ret, readAs_val hs]
            refine ⟨trivial, fun hr => ?_⟩
            obtain ⟨v', hv', -, m, hm⟩ := hvalid hr
            change Buf.val s.ty v = .val s.ty v' at hv'
            change s.Val at v'
            cases hv'
            change J.answer A m (.stat e q s) = _ at hm
            refine ⟨fun hne => ?_, fun _ => ?_⟩
            · change J.body A e q s n ≠ _ at hne
              change _ = J.body A e q s n
              rw [← Joined.answer_body hs he] at hne ⊢
              exact ((J.answer_unique A hne (m := m) (by rw [hm]; simp)).trans hm).symm
            · cases m with
              | zero => cases hm
              | succ m => exact ⟨m, (Joined.answer_body hs he m).symm.trans hm⟩
    | relation a b q s =>
      change CProg.Good _ _ _ ((CProg.lift (validate (E.layout s.ty))).bind fun _ => _)
      have hlift : CProg.Good (FreshGet A J R) (FreshEntry A J R) (fun x => x = validate (E.layout s.ty))
          (CProg.lift (validate (E.layout s.ty)) : CProg E Q Ent Unit) := CProg.Good.lift rfl
      refine hlift.bind (fun u hu => ?_) (fun x hx => ⟨by
        have := hval (E.layout s.ty); rw [← hx] at this; exact this, fun _ => ?_⟩)
      swap
      · have : ∀ m, J.answer A (m + 1) (.relation a b q s) = .error x := by
          intro m
          rw [J.answer_succ]
          simp only [Joined.ideal]
          rw [← hx]; rfl
        simp only [this]
        exact Faith.self (fun _ => .error x) n
      have hs := hst hu.symm
      rw [J.queryRelationErased_eq]
      cases he : (J.world.isStat a && J.world.isStat b) with
      | false =>
        refine ⟨trivial, fun _ => ?_⟩
        have : ∀ m, J.answer A (m + 1) (.relation a b q s) = .ok none := by
          intro m
          rw [J.answer_succ]
          simp only [Joined.ideal, he]
          rw [← hu]; rfl
        simp only [this]
        exact Faith.self (fun _ => .ok none) n
      | true =>
        simp only [if_true, CProg.bind_eq, CProg.bind_assoc, CProg.bind_ret]
        obtain ⟨v0, hv0⟩ := hJ.startValue s hs
        rw [hv0]
        simp only [CProg.lift_ok, CProg.bind_ret]
        have hb : ∀ m, J.answer A (m + 1) (.relation a b q s) =
            (runCalls (J.answer A m) (J.relationCalls a b q) ⟨s, .val s.ty v0⟩ >>= fun p =>
              p.value.read s.ty >>= fun x => .ok (some x)) := by
          intro m
          rw [J.answer_succ]
          simp only [Joined.ideal, he, if_true, hv0, ← hu, Res.bind_ok]
          rfl
        have hsafe := callsCode_safe (hJ.relationCalls a b q) (p := ⟨s, .val s.ty v0⟩) ⟨v0, rfl⟩ ih1
          (X := (· ≠ .ub)) (fun _ h => h) (fun c hc p => .inr (hn.relation a b q c hc p))
        have hfaith : CProg.Good (FreshGet A J R) (FreshEntry A J R)
            (fun x => R (.relation a b q s) →
              Faith (fun m => runCalls (J.answer A m) (J.relationCalls a b q) ⟨s, .val s.ty v0⟩) n x)
            (callsCode (J.handle A n) (J.relationCalls a b q) ⟨s, .val s.ty v0⟩) := by
          by_cases hr : R (.relation a b q s)
          · exact (Faith.calls_on (fun r => answer_mono r) ih2 (hR.relation a b q s hr).2.2.2.2
              (hn.relation a b q) _).mono fun _ h _ => h
          · exact hsafe.mono fun _ _ h => absurd h hr
        refine (hsafe.both hfaith).bind (fun p hp => ?_) (fun x hx => ⟨hx.1, fun hr => (hx.2 hr).map_error hb⟩)
        · obtain ⟨⟨hss, v, hv⟩, hf⟩ := hp
          obtain ⟨s', b'⟩ := p
          change s' = s at hss
          subst hss
          change s'.Val at v
          change b' = .val s'.ty v at hv
          subst hv
          change CProg.Good _ _ _ (CProg.lift (StatMap.readAs s' (some (.val s'.ty v))))
          rw [readAs_val hs]
          refine ⟨trivial, fun hr => ?_⟩
          refine (hf hr).map_ok hb ?_
          change (Buf.read s'.ty (.val s'.ty v) >>= _) = _
          rw [Buf.read_val hs]; rfl
    | attr e a =>
      change CProg.Good _ _ _ (J.hasAttributeErased _ e a)
      rw [J.hasAttributeErased_eq]
      have hb : ∀ m, J.answer A (m + 1) (.attr e a) = anyCalls (J.answer A m) (J.attrCalls e a) := by
        intro m
        rw [J.answer_succ]; rfl
      simp only [hb]
      have hsafe := anyCode_safe (hJ.attrCalls e a) ih1 (X := (· ≠ .ub)) (fun _ h => h)
        (fun c hc => .inr (hn.attr e a c hc))
      by_cases hr : R (.attr e a)
      · exact hsafe.both ((Faith.any_on (fun r => answer_mono r) ih2 (hR.attr e a hr).2 (hn.attr e a)).mono
          fun _ h _ => h)
      · exact hsafe.mono fun _ h => ⟨h, fun h' => absurd h' hr⟩

end stale

/-! ### changes of the world -/

section
variable {X : Ent → Prop} {J J' : Joined E Q Ent} {A : Addr E}

theorem CStream.SameOutside.calls {st st' : CStream E Q Ent} (h : CStream.SameOutside X st st') {e : Ent}
    {q : QualifierQuery Q} {es : List Ent} (hes : ∀ c ∈ es, ¬ X c) : st'.calls e q es = st.calls e q es := by
  obtain ⟨query', rfl, hq⟩ := h
  have : es.filterMap query' = es.filterMap st.query := List.filterMap_congr fun c hc => hq c (hes c hc)
  change (es.filterMap query').map _ = _
  rw [this]; rfl

theorem CStream.SameOutside.attrCalls {st st' : CStream E Q Ent} (h : CStream.SameOutside X st st') {e : Ent}
    {a : String} {es : List Ent} (hes : ∀ c ∈ es, ¬ X c) : st'.attrCalls e a es = st.attrCalls e a es := by
  obtain ⟨query', rfl, hq⟩ := h
  have : es.filterMap query' = es.filterMap st.query := List.filterMap_congr fun c hc => hq c (hes c hc)
  change (es.filterMap query').map _ = _
  rw [this]; rfl

theorem CStream.SameOutside.relationCalls {st st' : CStream E Q Ent} (h : CStream.SameOutside X st st') {a b : Ent}
    {q : QualifierQuery Q} (ha : ¬ X a) (hb : ¬ X b) : st'.relationCalls a b q = st.relationCalls a b q := by
  obtain ⟨query', rfl, hq⟩ := h
  simp only [CStream.relationCalls, hq a ha, hq b hb]
  cases st.query a <;> cases st.query b <;> rfl

theorem flatMap_forall₂ {γ : Type u} {β' : Type v} {r : β' → β' → Prop} {f : β' → List γ} {l l' : List β'}
    (h : List.Forall₂ r l l') (hf : ∀ x y, r x y → f y = f x) : l'.flatMap f = l.flatMap f := by
  induction h with
  | nil => rfl
  | cons h _ ih => simp only [List.flatMap_cons, hf _ _ h, ih]

theorem Joined.ChangedAt.startValue (h : J.ChangedAt J' X) (s : StatInst E) :
    J'.world.startValue A s = J.world.startValue A s := by
  unfold World.startValue World.registered
  rw [h.defaults]

theorem Joined.ChangedAt.agreeOn (h : J.ChangedAt J' X) : AgreeOn A J J' (fun r => ¬ J.Reaches X r) where
  stat e q s hr := by
    have ha : ¬ J.About X (.stat e q s) := fun ha => hr (.here ha)
    simp only [Joined.About, not_or, not_exists, not_and] at ha
    refine ⟨h.isStat e ha.1, h.startValue s, ?_, fun c hc p => .of_mayAsk fun r' hr' h' => hr (.asks ⟨c, hc, p, hr'⟩ h')⟩
    have h1 : ∀ c ∈ [e], ¬ X c := fun c hc => by cases List.mem_singleton.1 hc; exact ha.1
    unfold Joined.statCalls
    rw [h.relations, h.children e ha.1, flatMap_forall₂ h.comp fun x y hxy => hxy.calls h1,
      flatMap_forall₂ h.rel fun x y hxy => hxy.calls h1,
      flatMap_forall₂ h.child fun x y hxy => hxy.calls ha.2]
  relation a b q s hr := by
    have ha : ¬ J.About X (.relation a b q s) := fun ha => hr (.here ha)
    simp only [Joined.About, not_or] at ha
    refine ⟨h.isStat a ha.1, h.isStat b ha.2, h.startValue s, ?_,
      fun c hc p => .of_mayAsk fun r' hr' h' => hr (.asks ⟨c, hc, p, hr'⟩ h')⟩
    unfold Joined.relationCalls
    rw [h.relations, h.placeholder, flatMap_forall₂ h.rel fun x y hxy => hxy.relationCalls ha.1 ha.2]
  attr e a hr := by
    have ha : ¬ J.About X (.attr e a : Req E Q Ent) := fun ha => hr (.here ha)
    simp only [Joined.About, not_or, not_exists, not_and] at ha
    refine ⟨?_, fun c hc => .of_mayAsk fun r' hr' h' => hr (.asks ⟨c, hc, hr'⟩ h')⟩
    have h1 : ∀ c ∈ [e], ¬ X c := fun c hc => by cases List.mem_singleton.1 hc; exact ha.1
    unfold Joined.attrCalls
    rw [h.isStat e ha.1, h.children e ha.1, flatMap_forall₂ h.comp fun x y hxy => hxy.attrCalls h1,
      flatMap_forall₂ h.rel fun x y hxy => hxy.attrCalls h1,
      flatMap_forall₂ h.child fun x y hxy => hxy.attrCalls ha.2]

/-- C110: whatever the streams do, a change at some entities changes the results of no request that does not reach
them -/
theorem C110_answer (h : J.ChangedAt J' X) (n : Nat) (r : Req E Q Ent) (hr : ¬ J.Reaches X r) :
    J'.answer A n r = J.answer A n r :=
  h.agreeOn.answer n r hr

variable [DecidableEq Q] [DecidableEq Ent]

/-- the values have the types of their stats, and those of the requests of `R` are right -/
def CacheFresh (A : Addr E) (J : Joined E Q Ent) (R : Req E Q Ent → Prop) (c : Cache E Q Ent) : Prop :=
  ∀ x ∈ c, FreshEntry A J R x.1 x.2

theorem Joined.Safe.run_fresh {R : Req E Q Ent → Prop} (hJ : J.Safe A) (hn : J.NoStore) (hR : AgreeOn A J J R)
    {c : Cache E Q Ent} (hc : CacheFresh A J R c) (n : Nat) (r : Req E Q Ent) :
    (R r → Faithful A J n r ((J.handle A n r).run A c).1) ∧ CacheFresh A J R ((J.handle A n r).run A c).2 := by
  have := (hJ.staleCode hn hR n r).run (CacheFresh A J R)
    (fun _ h k b hb => h _ (HMap.mem_of_get (CacheKey.eq_iff A) hb))
    (fun c k b h hb x hx => by
      rcases HMap.mem_insert (CacheKey.eq_iff A) hx with h' | rfl
      · exact h x h'
      · exact hb)
    (fun c h => by
      have ht : CacheTyped c := fun x hx => (h x hx).1
      rw [ht.clear]; exact fun x hx => by cases hx) hc
  exact ⟨this.1.2, this.2⟩

theorem history_fresh (evs : List (Event E Q Ent)) (J J' : Joined E Q Ent) {R : Req E Q Ent → Prop}
    (hJ : J'.Safe A) (hn : J'.NoStore) (hR : AgreeOn A J J' R)
    (hc : ∀ J', Event.change J' ∈ evs → AgreeOn A J J' R ∧ J'.Safe A ∧ J'.NoStore) {c : Cache E Q Ent}
    (hv : CacheFresh A J' R c) :
    (history A J' c evs).1.length = evs.countP Event.isQuery ∧
    ∀ o ∈ (history A J' c evs).1, R o.req → Faithful A J o.depth o.req o.res := by
  induction evs generalizing J' c with
  | nil => exact ⟨rfl, fun o ho => by cases ho⟩
  | cons ev evs ih =>
    have hc' : ∀ J', Event.change J' ∈ evs → AgreeOn A J J' R ∧ J'.Safe A ∧ J'.NoStore :=
      fun J' hJ' => hc J' (List.mem_cons_of_mem _ hJ')
    cases ev with
    | query n r =>
      have h1 := hJ.run_fresh hn hR.self hv n r
      have h2 := ih J' hJ hn hR hc' h1.2
      refine ⟨by simp [history, List.countP_cons, Event.isQuery, h2.1], fun o ho hr => ?_⟩
      simp only [history, List.mem_cons] at ho
      rcases ho with rfl | ho
      · have := h1.1 hr
        unfold Faithful at this ⊢
        simp only [hR.answer _ r hr] at this
        exact this
      · exact h2.2 o ho hr
    | clear =>
      have ht : CacheTyped c := fun x hx => (hv x hx).1
      have h2 := ih J' hJ hn hR hc' (c := []) (fun x hx => by cases hx)
      simp only [history, ht.clear]
      exact ⟨by simp [Event.isQuery, h2.1], h2.2⟩
    | change J'' =>
      obtain ⟨h1, h2, h3⟩ := hc J'' List.mem_cons_self
      have h2 := ih J'' h2 h3 h1 hc' (c := c) (fun x hx => ⟨(hv x hx).1, fun hr =>
        (h1.valid hr).2 ((hR.valid hr).1 ((hv x hx).2 hr))⟩)
      simp only [history]
      exact ⟨by simp [Event.isQuery, h2.1], h2.2⟩

/-- C110: in a history of queries, clears and changes at some entities, with no clear needed after a change, all
queries run, and each that does not reach the entities returns what it returned without a cache before all changes,
which is what it returns without a cache now -/
theorem C110_stale (J : Joined E Q Ent) (X : Ent → Prop) (evs : List (Event E Q Ent)) (hJ : J.Safe A) (hn : J.NoStore)
    (hc : ∀ J', Event.change J' ∈ evs → J.ChangedAt J' X ∧ J'.Safe A ∧ J'.NoStore) :
    (history A J [] evs).1.length = evs.countP Event.isQuery ∧
    ∀ o ∈ (history A J [] evs).1, ¬ J.Reaches X o.req → Faithful A J o.depth o.req o.res := by
  have hself : J.ChangedAt J X := by
    have h : ∀ l : List (CStream E Q Ent), List.Forall₂ (CStream.SameOutside X) l l := fun l =>
      List.forall₂_same.2 fun st _ => ⟨st.query, rfl, fun _ _ => rfl⟩
    exact ⟨fun _ _ => rfl, fun _ _ => rfl, rfl, rfl, rfl, rfl, h _, h _, h _⟩
  exact history_fresh evs J J hJ hn hself.agreeOn (fun J' hJ' => ⟨(hc J' hJ').1.agreeOn, (hc J' hJ').2⟩)
    (c := []) (fun x hx => by cases hx)

end

/-! ### an example -/

/-- components holding a number, which is added to the stats of their entity; that of entity 2 also adds the stat of
entity 1 -/
def rcComp (w : Nat → Option Int) : CStream demo (BitVec 8) Nat where
  Item := Int
  query := w
  stream this it _ p :=
    if this == 2 then .ask (.stat 1 demoQ (demoInt 0)) fun (r : Option StatInt) => demoAdd (it + (r.map (·.addend)).getD 0) p
    else demoAdd it p

/-- the components of children add a hundred times their number to the stats of the parent -/
def rcChild (w : Nat → Option Int) : CStream demo (BitVec 8) Nat where
  Item := Int
  query := w
  stream _ it _ := demoAdd (100 * it)

/-- entity 0 has child 1 -/
def rcWorld : World demo (BitVec 8) Nat where
  isStat _ := true
  children e := if e == 0 then some [1] else none
  defaults := none
  relations := none
  cached := true
  placeholder := 99

def rcJoined (w : Nat → Option Int) : Joined demo (BitVec 8) Nat := (rcWorld.withComponent (rcComp w)).withChildren (rcChild w)

/-- all components hold 1 -/
def rcOld : Joined demo (BitVec 8) Nat := rcJoined fun _ => some 1
/-- the one of entity 1 now holds 5 -/
def rcNew : Joined demo (BitVec 8) Nat := rcJoined fun e => some (if e = 1 then 5 else 1)

theorem rcJoined_changed {w w' : Nat → Option Int} {X : Nat → Prop} (h : ∀ e, ¬ X e → w' e = w e) :
    (rcJoined w).ChangedAt (rcJoined w') X where
  isStat _ _ := rfl
  children _ _ := rfl
  defaults := rfl
  relations := rfl
  cached := rfl
  placeholder := rfl
  comp := .cons ⟨w', rfl, h⟩ .nil
  child := .cons ⟨w', rfl, h⟩ .nil
  rel := .nil

theorem rcNew_changed : rcOld.ChangedAt rcNew (· = 1) := rcJoined_changed fun e he => by simp [he]

theorem rcJoined_safe (w : Nat → Option Int) : (rcJoined w).Safe demoAddr where
  globals g hg := by cases hg
  streams st hst e it _ this q := by
    have : st ∈ [rcComp w, rcChild w] := hst
    simp only [List.mem_cons, List.not_mem_nil, or_false] at this
    rcases this with rfl | rfl
    · intro p hp
      change Prog.All _ (if this == 2 then _ else _)
      split
      · exact fun r => demoAdd_safe _ p hp
      · exact demoAdd_safe _ p hp
    · exact demoAdd_safe _
  relations st hst := by cases hst
  attrs st hst e it _ this a := by
    have : st ∈ [rcComp w, rcChild w] := hst
    simp only [List.mem_cons, List.not_mem_nil, or_false] at this
    rcases this with rfl | rfl <;> · intro h; cases h
  defaults d hd := by cases hd

theorem rcJoined_noStore (w : Nat → Option Int) : (rcJoined w).NoStore := by
  refine .of_streams (fun g hg => ?_) (fun st hst e it _ this q => ?_) (fun st hst => ?_)
    (fun st hst e it _ this a => ?_)
  · cases hg
  · have : st ∈ [rcComp w, rcChild w] := hst
    simp only [List.mem_cons, List.not_mem_nil, or_false] at this
    rcases this with rfl | rfl
    · intro p
      change Prog.NoStore (if this == 2 then _ else _)
      split
      · exact fun r => (demoAdd_quiet _ p).noStore
      · exact (demoAdd_quiet _ p).noStore
    · exact fun p => (demoAdd_quiet _ p).noStore
  · cases hst
  · have : st ∈ [rcComp w, rcChild w] := hst
    simp only [List.mem_cons, List.not_mem_nil, or_false] at this
    rcases this with rfl | rfl <;> trivial

theorem Prog.not_mayAsk_lift (x : Res α) (r : Req E Q Ent) : ¬ (Prog.lift x : Prog E Q Ent α).MayAsk r := by
  cases x <;> exact id

/-- entity 3 is not reached -/
theorem rcOld_not_reaches (s : StatInst demo) : ¬ rcOld.Reaches (· = 1) (.stat 3 demoQ s) := by
  intro h
  cases h with
  | here h =>
    rcases h with h | ⟨c, hc, -⟩
    · cases h
    · cases hc
  | asks h _ =>
    obtain ⟨c, hc, p, h⟩ := h
    cases List.mem_singleton.1 (show c ∈ [demoAdd 1] from hc)
    exact Prog.not_mayAsk_lift _ _ h

/-- entity 1 is reached, so are its parent 0, and 2, which asks for it -/
example (s : StatInst demo) : rcOld.Reaches (· = 1) (.stat 1 demoQ s) ∧ rcOld.Reaches (· = 1) (.stat 0 demoQ s) ∧
    rcOld.Reaches (· = 1) (.stat 2 demoQ s) :=
  ⟨.here (.inl rfl), .here (.inr ⟨1, List.mem_singleton.2 rfl, rfl⟩),
    .asks (r' := .stat 1 demoQ (demoInt 0)) ⟨_, List.mem_singleton.2 rfl, ⟨demoInt 0, .val true (⟨0, 0, 0, 0⟩ : StatInt)⟩, .inl rfl⟩ (.here (.inl rfl))⟩

/-- queries before and after a change that is not followed by a clear -/
def rcEvents : List (Event demo (BitVec 8) Nat) :=
  [.query 2 (.stat 2 demoQ (demoInt 0)), .query 2 (.stat 3 demoQ (demoInt 0)), .change rcNew,
   .query 2 (.stat 0 demoQ (demoInt 0)), .query 2 (.stat 2 demoQ (demoInt 0)), .query 2 (.stat 3 demoQ (demoInt 0))]

example : ∀ o ∈ (history demoAddr rcOld [] rcEvents).1, ¬ rcOld.Reaches (· = 1) o.req →
    Faithful demoAddr rcOld o.depth o.req o.res :=
  (C110_stale rcOld (· = 1) rcEvents (rcJoined_safe _) (rcJoined_noStore _) (by
    intro J hJ
    simp only [rcEvents, List.mem_cons, reduceCtorEq, List.not_mem_nil, false_or, or_false, Event.change.injEq] at hJ
    subst hJ; exact ⟨rcNew_changed, rcJoined_safe _, rcJoined_noStore _⟩)).2

/-- C110: all three ways of reaching an entity matter: after a change of entity 1 the stats of 1, of its parent 0, and
of 2, which asks for it, are other ones, but the cache gives those before the change -/
theorem C110_reached : ∃ (J J' : Joined demo (BitVec 8) Nat) (X : Nat → Prop), J.ChangedAt J' X ∧ J.Safe demoAddr ∧
    J.NoStore ∧ J'.Safe demoAddr ∧ J'.NoStore ∧ X = (· = 1) ∧ J.world.children 0 = some [1] ∧
    J.MayAsk (.stat 1 demoQ (demoInt 0)) (.stat 2 demoQ (demoInt 0)) ∧
    ∀ e < 3, ∃ v w : Option StatInt, v ≠ w ∧
      J'.answer demoAddr 2 (.stat e demoQ (demoInt 0)) = .ok w ∧
      ((J'.handle demoAddr 2 (.stat e demoQ (demoInt 0))).run demoAddr
        (history demoAddr J [] [.query 2 (.stat e demoQ (demoInt 0))]).2).1 = .ok v := by
  refine ⟨rcOld, rcNew, (· = 1), rcNew_changed, rcJoined_safe _, rcJoined_noStore _, rcJoined_safe _, rcJoined_noStore _,
    rfl, rfl, ⟨_, List.mem_singleton.2 rfl, ⟨demoInt 0, .val true (⟨0, 0, 0, 0⟩ : StatInt)⟩, .inl rfl⟩, fun e he => ?_⟩
  match e, he with
  | 0, _ => exact ⟨some ⟨101, -2147483648, 2147483647, 1⟩, some ⟨501, -2147483648, 2147483647, 1⟩, by simp, rfl, rfl⟩
  | 1, _ => exact ⟨some ⟨1, -2147483648, 2147483647, 1⟩, some ⟨5, -2147483648, 2147483647, 1⟩, by simp, rfl, rfl⟩
  | 2, _ => exact ⟨some ⟨2, -2147483648, 2147483647, 1⟩, some ⟨6, -2147483648, 2147483647, 1⟩, by simp, rfl, rfl⟩

end BSQ
