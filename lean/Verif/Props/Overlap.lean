import Verif.Spec.Overlap
import Verif.Props.Reach
import Verif.Props.Recursion
/-!
# C115: who may overwrite a cached value
-/
namespace BSQ
set_option linter.unusedSectionVars false
variable {E : Env} {Q Ent α β : Type} {A : Addr E} {J : Joined E Q Ent}
  {G : CacheKey E Q Ent → Option (Buf E) → Prop} {k : CacheKey E Q Ent}

/-! ### what code does with one key, as long as the cache answers as `G` allows -/

/-- once the key is cached, the code does not store it -/
abbrev Shut (G : CacheKey E Q Ent → Option (Buf E) → Prop) (k : CacheKey E Q Ent) (x : CProg E Q Ent α) : Prop :=
  CProg.Good (fun j o => G j o ∧ (j = k → o ≠ none)) (fun j _ => j ≠ k) (fun _ => True) x

/-- the code neither looks the key up nor stores it -/
def Avoids (G : CacheKey E Q Ent → Option (Buf E) → Prop) (k : CacheKey E Q Ent) : CProg E Q Ent α → Prop
  | .ret _ => True
  | .fail _ => True
  | .get j f => j ≠ k ∧ ∀ o, G j o → Avoids G k (f o)
  | .put j _ f => j ≠ k ∧ Avoids G k f
  | .clear f => Avoids G k f

/-- once the code has found or stored the key, it does not store it as long as it stays cached -/
def Once (G : CacheKey E Q Ent → Option (Buf E) → Prop) (k : CacheKey E Q Ent) : CProg E Q Ent α → Prop
  | .ret _ => True
  | .fail _ => True
  | .get j f => ∀ o, G j o → Once G k (f o) ∧ (j = k → o ≠ none → Shut G k (f o))
  | .put j _ f => Once G k f ∧ (j = k → Shut G k f)
  | .clear f => Once G k f

/-- the code may end with these outcomes only -/
abbrev Gives (G : CacheKey E Q Ent → Option (Buf E) → Prop) (P : Res α → Prop) (x : CProg E Q Ent α) : Prop :=
  CProg.Good G (fun _ _ => True) P x

theorem Avoids.bind {P : Res α → Prop} {x : CProg E Q Ent α} {f : α → CProg E Q Ent β}
    (hx : Avoids G k x) (hP : Gives G P x) (hf : ∀ a, P (.ok a) → Avoids G k (f a)) : Avoids G k (x.bind f) := by
  induction x with
  | ret a => exact hf a hP
  | fail e => trivial
  | get j f ih => exact ⟨hx.1, fun o ho => ih o (hx.2 o ho) (hP o ho)⟩
  | put j b f ih => exact ⟨hx.1, ih hx.2 hP.2⟩
  | clear f ih => exact ih hx hP

theorem Shut.bind {P : Res α → Prop} {x : CProg E Q Ent α} {f : α → CProg E Q Ent β}
    (hx : Shut G k x) (hP : Gives G P x) (hf : ∀ a, P (.ok a) → Shut G k (f a)) : Shut G k (x.bind f) := by
  induction x with
  | ret a => exact hf a hP
  | fail e => trivial
  | get j f ih => exact fun o ho => ih o (hx o ho) (hP o ho.1)
  | put j b f ih => exact ⟨hx.1, ih hx.2 hP.2⟩
  | clear f ih => exact ih hx hP

theorem Avoids.bind_once {P : Res α → Prop} {x : CProg E Q Ent α} {f : α → CProg E Q Ent β} (hx : Avoids G k x)
    (hP : Gives G P x) (hf : ∀ a, P (.ok a) → Once G k (f a)) : Once G k (x.bind f) := by
  induction x with
  | ret a => exact hf a hP
  | fail e => trivial
  | get j f ih => exact fun o ho => ⟨ih o (hx.2 o ho) (hP o ho), fun hj => absurd hj hx.1⟩
  | put j b f ih => exact ⟨ih hx.2 hP.2, fun hj => absurd hj hx.1⟩
  | clear f ih => exact ih hx hP

theorem Once.bind {P : Res α → Prop} {x : CProg E Q Ent α} {f : α → CProg E Q Ent β}
    (hx : Once G k x) (hP : Gives G P x) (hf : ∀ a, P (.ok a) → Once G k (f a) ∧ Shut G k (f a)) :
    Once G k (x.bind f) := by
  induction x with
  | ret a => exact (hf a hP).1
  | fail e => trivial
  | get j g ih =>
    exact fun o ho => ⟨ih o (hx o ho).1 (hP o ho),
      fun hj hne => Shut.bind ((hx o ho).2 hj hne) (hP o ho) fun a ha => (hf a ha).2⟩
  | put j b g ih => exact ⟨ih hx.1 hP.2, fun hj => Shut.bind (hx.2 hj) hP.2 fun a ha => (hf a ha).2⟩
  | clear g ih => exact ih hx hP

theorem Gives.any (x : CProg E Q Ent α) : Gives G (fun _ => True) x := by
  induction x with
  | ret a => trivial
  | fail e => trivial
  | get j f ih => exact fun o _ => ih o
  | put j b f ih => exact ⟨trivial, ih⟩
  | clear f ih => exact ih

theorem Gives.and {P R : Res α → Prop} {x : CProg E Q Ent α} (h : Gives G P x) (h' : Gives G R x) :
    Gives G (fun y => P y ∧ R y) x := by
  induction x with
  | ret a => exact ⟨h, h'⟩
  | fail e => exact ⟨h, h'⟩
  | get j f ih => exact fun o ho => ih o (h o ho) (h' o ho)
  | put j b f ih => exact ⟨trivial, ih h.2 h'.2⟩
  | clear f ih => exact ih h h'

theorem CProg.Good.gives {okPut : CacheKey E Q Ent → Buf E → Prop} {P : Res α → Prop} {x : CProg E Q Ent α}
    (h : CProg.Good G okPut P x) : Gives G P x := by
  induction x with
  | ret a => exact h
  | fail e => exact h
  | get j f ih => exact fun o ho => ih o (h o ho)
  | put j b f ih => exact ⟨trivial, ih h.2⟩
  | clear f ih => exact ih h

/-! ### properties of code that hold for a query if they hold for the queries it makes -/

/-- kept when code is put together -/
structure Tame (G : CacheKey E Q Ent → Option (Buf E) → Prop) (Φ : ∀ {β : Type}, CProg E Q Ent β → Prop) : Prop where
  ret : ∀ {β : Type} (a : β), Φ (.ret a)
  fail : ∀ {β : Type} (e : Err), Φ (.fail e : CProg E Q Ent β)
  clear : ∀ {β : Type} {x : CProg E Q Ent β}, Φ x → Φ (.clear x)
  bind : ∀ {β γ : Type} {P : Res β → Prop} {x : CProg E Q Ent β} {f : β → CProg E Q Ent γ}, Φ x → Gives G P x →
    (∀ a, P (.ok a) → Φ (f a)) → Φ (x.bind f)
  attempt : ∀ {β : Type} {x : CProg E Q Ent β}, Φ x → Φ x.attempt

theorem Tame.lift {Φ : ∀ {β : Type}, CProg E Q Ent β → Prop} (h : Tame G Φ) (x : Res α) :
    Φ (CProg.lift x : CProg E Q Ent α) := by
  cases x with
  | ok a => exact h.ret a
  | error e => exact h.fail e

theorem Avoids.tame : Tame G (fun {β} (x : CProg E Q Ent β) => Avoids G k x) where
  ret _ := trivial
  fail _ := trivial
  clear h := h
  bind := Avoids.bind
  attempt {β x} h := by
    induction x with
    | ret a => trivial
    | fail e => cases e <;> trivial
    | get j f ih => exact ⟨h.1, fun o ho => ih o (h.2 o ho)⟩
    | put j b f ih => exact ⟨h.1, ih h.2⟩
    | clear f ih => exact ih h

theorem Shut.tame : Tame G (fun {β} (x : CProg E Q Ent β) => Shut G k x) where
  ret _ := trivial
  fail _ := trivial
  clear h := h
  bind := Shut.bind
  attempt h := h.attempt fun _ _ => trivial

theorem Once.tame : Tame G (fun {β} (x : CProg E Q Ent β) => Once G k x ∧ Shut G k x) where
  ret _ := ⟨trivial, trivial⟩
  fail _ := ⟨trivial, trivial⟩
  clear h := h
  bind h hP hf := ⟨h.1.bind hP hf, Shut.bind h.2 hP fun a ha => (hf a ha).2⟩
  attempt {β x} h := by
    refine ⟨?_, Shut.tame.attempt h.2⟩
    replace h := h.1
    induction x with
    | ret a => trivial
    | fail e => cases e <;> trivial
    | get j f ih => exact fun o ho => ⟨ih o (h o ho).1, fun hj hne => Shut.tame.attempt ((h o ho).2 hj hne)⟩
    | put j b f ih => exact ⟨ih h.1, fun hj => Shut.tame.attempt (h.2 hj)⟩
    | clear f ih => exact ih h

/-- an outcome at some depth is the outcome at each depth that has one -/
theorem DepthMono.agree {X : Nat → Res α} (h : DepthMono X) {m m' : Nat} {x : Res α} (hm : X m ≠ .error .fuel)
    (hx : x ≠ .error .fuel) (hm' : X m' = x) : X m = x := by
  subst hm'
  rcases Nat.le_total m m' with hl | hl
  · exact (h m m' hl hm).symm
  · exact h m' m hl hx

section tame
variable {Φ : ∀ {β : Type}, CProg E Q Ent β → Prop} (hΦ : Tame G Φ) {h : Handler E Q Ent} {M : Option Nat} {n : Nat}
  (hh : ∀ r, (∀ m ∈ M, J.answer A m r ≠ .error .fuel) → Φ (h r))
  (hg : ∀ m ∈ M, ∀ r, Gives G (Faith (fun m => J.answer A m r) n) (h r))
include hΦ hh hg

theorem Tame.interp {p : Prog E Q Ent α} (hp : ∀ m ∈ M, p.eval (J.answer A m) ≠ .error .fuel) (hn : p.NoStore) :
    Φ (p.interp h) := by
  induction p with
  | ret a => exact hΦ.ret a
  | fail e => exact hΦ.fail e
  | ask r k ih =>
    have hr : ∀ m ∈ M, J.answer A m r ≠ .error .fuel := fun m hm he => hp m hm (by
      change (J.answer A m r >>= fun x => (k x).eval (J.answer A m)) = _
      rw [he]; rfl)
    refine hΦ.bind (P := fun x => ∀ m ∈ M, x ≠ .error .fuel → ∃ m', J.answer A m' r = x) (hh r hr) ?_
      fun a ha => ih a (fun m hm => ?_) (hn a)
    · cases M with
      | none => exact (Gives.any _).mono fun _ _ m hm => by cases hm
      | some m => exact (hg m rfl r).mono fun x hx _ _ => hx.2
    · obtain ⟨m', hm'⟩ := ha m hm (by simp)
      have := (answer_mono r).agree (hr m hm) (by simp) hm'
      have hp := hp m hm
      change (J.answer A m r >>= fun x => (k x).eval (J.answer A m)) ≠ _ at hp
      simp only [this] at hp
      exact hp
  | attempt r k ih =>
    have hr : ∀ m ∈ M, J.answer A m r ≠ .error .fuel := fun m hm he => hp m hm (by
      change ((J.answer A m r).attempt >>= fun x => (k x).eval (J.answer A m)) = _
      rw [he]; rfl)
    refine hΦ.bind (P := fun x => ∀ m ∈ M, x ≠ .error .fuel → ∃ m', (J.answer A m' r).attempt = x)
      (hΦ.attempt (hh r hr)) ?_ fun a ha => ih a (fun m hm => ?_) (hn a)
    · cases M with
      | none => exact (Gives.any _).mono fun _ _ m hm => by cases hm
      | some m => exact (Faith.attempt (hg m rfl r)).mono fun x hx _ _ => hx.2
    · obtain ⟨m', hm'⟩ := ha m hm (by simp)
      have := (answer_mono (A := A) (J := J) r).attempt.agree
        (fun h => hr m hm (Res.attempt_fuel.1 h)) (by simp) hm'
      have hp := hp m hm
      change ((J.answer A m r).attempt >>= fun x => (k x).eval (J.answer A m)) ≠ _ at hp
      simp only [this] at hp
      exact hp
  | clear k ih => exact hΦ.clear (ih hp hn)
  | store e q p k ih => exact hn.elim

theorem Tame.calls {l : List (Call E Q Ent)} (hsafe : ∀ c ∈ l, c.Safe)
    (hn : ∀ c ∈ l, ∀ p, (c p).NoStore) (p : Pair E) (ht : p.Typed)
    (hl : ∀ m ∈ M, runCalls (J.answer A m) l p ≠ .error .fuel) : Φ (callsCode h l p) := by
  induction l generalizing p with
  | nil => exact hΦ.ret p
  | cons c l ih =>
    have hg1 : Gives G (Call.Outcome (fun _ => True) p.stat) ((c p).interp h) :=
      (hsafe c (by simp)).interp ht (fun r => (Gives.any _).mono fun x _ => by cases x <;> trivial)
        (fun _ _ => trivial) (.inl fun _ _ _ => trivial)
    have hg2 : Gives G (fun x => ∀ m ∈ M, x ≠ .error .fuel → ∃ m', (c p).eval (J.answer A m') = x)
        ((c p).interp h) := by
      cases M with
      | none => exact (Gives.any _).mono fun _ _ m hm => by cases hm
      | some m =>
        exact (Faith.interp answer_mono (hg m rfl) (c p) (hn c (by simp) p).storesOk).mono fun x hx _ _ => hx.2
    have hc : ∀ m ∈ M, (c p).eval (J.answer A m) ≠ .error .fuel := fun m hm he => hl m hm (by
      change ((c p).eval (J.answer A m) >>= fun x => runCalls (J.answer A m) l x) = _
      rw [he]; rfl)
    refine hΦ.bind (hΦ.interp hh hg hc (hn c (by simp) p)) (hg1.and hg2) fun p' hp' => ?_
    refine ih (fun c hc => hsafe c (by simp [hc])) (fun c hc => hn c (by simp [hc])) p' hp'.1.2 fun m hm => ?_
    obtain ⟨m', hm'⟩ := hp'.2 m hm (by simp)
    have := (DepthMono.eval (answer_mono (A := A) (J := J)) (c p)).agree (hc m hm) (by simp) hm'
    have hl := hl m hm
    change ((c p).eval (J.answer A m) >>= fun x => runCalls (J.answer A m) l x) ≠ _ at hl
    simp only [this] at hl
    exact hl

theorem Tame.anyCode {l : List (Prog E Q Ent Bool)} (hn : ∀ c ∈ l, c.NoStore)
    (hl : ∀ m ∈ M, anyCalls (J.answer A m) l ≠ .error .fuel) : Φ (anyCode h l) := by
  induction l with
  | nil => exact hΦ.ret _
  | cons c l ih =>
    have hg2 : Gives G (fun x => ∀ m ∈ M, x ≠ .error .fuel → ∃ m', c.eval (J.answer A m') = x) (c.interp h) := by
      cases M with
      | none => exact (Gives.any _).mono fun _ _ m hm => by cases hm
      | some m =>
        exact (Faith.interp answer_mono (hg m rfl) c (hn c (by simp)).storesOk).mono fun x hx _ _ => hx.2
    have hc : ∀ m ∈ M, c.eval (J.answer A m) ≠ .error .fuel := fun m hm he => hl m hm (by
      change (c.eval (J.answer A m) >>= fun b => if b then .ok true else anyCalls (J.answer A m) l) = _
      rw [he]; rfl)
    refine hΦ.bind (hΦ.interp hh hg hc (hn c (by simp))) hg2 fun b hb => ?_
    cases b
    · refine ih (fun c hc => hn c (by simp [hc])) fun m hm => ?_
      obtain ⟨m', hm'⟩ := hb m hm (by simp)
      have := (DepthMono.eval (answer_mono (A := A) (J := J)) c).agree (hc m hm) (by simp) hm'
      have hl := hl m hm
      change (c.eval (J.answer A m) >>= fun b => if b then .ok true else anyCalls (J.answer A m) l) ≠ _ at hl
      simp only [this] at hl
      exact hl
    · exact hΦ.ret _

end tame

/-- the lookup and the store around the computation of a stat -/
def Joined.around (J : Joined E Q Ent) (e : Ent) (q : QualifierQuery Q) (s : StatInst E)
    (x : CProg E Q Ent (Pair E)) : CProg E Q Ent (Option (Buf E)) :=
  (J.lookup e q s).bind fun
    | some b => .ret (some b)
    | none => x.bind fun p => (J.remember e q p).bind fun _ => .ret (some p.value)

theorem Joined.queryStatErased_around (h : Handler E Q Ent) (e : Ent) (q : QualifierQuery Q) (s : StatInst E) :
    J.queryStatErased A h e q s = if J.world.isStat e then J.around e q s (J.compute A h e q s) else .ret none := by
  unfold Joined.queryStatErased Joined.around Joined.miss
  simp only [CProg.bind_eq]
  congr

/-- outcomes that keep the stat -/
def Keeps (s : StatInst E) : Res (Pair E) → Prop
  | .ok p => p.stat = s
  | .error _ => True

theorem Joined.Safe.compute_keeps (hJ : J.Safe A) (h : Handler E Q Ent) (e : Ent) (q : QualifierQuery Q)
    {s : StatInst E} (hs : Storable (E.layout s.ty)) : Gives G (Keeps s) (J.compute A h e q s) := by
  obtain ⟨v, hv⟩ := hJ.startValue s hs
  rw [J.compute_eq, hv, CProg.lift_ok, CProg.bind_ret]
  refine (callsCode_safe (X := fun _ => True) (hJ.statCalls e q) (p := ⟨s, .val s.ty v⟩) ⟨v, rfl⟩
    (fun r => (Gives.any _).mono fun x _ => by cases x <;> trivial) (fun _ _ => trivial)
    (fun c hc p => .inl fun _ _ _ => trivial)).mono fun x hx => ?_
  cases x with
  | ok p => exact hx.1
  | error x => trivial

section queries
variable (hJ : J.Safe A) (hn : J.NoStore)
include hJ hn

theorem Tame.compute {Φ : ∀ {β : Type}, CProg E Q Ent β → Prop} (hΦ : Tame G Φ) {h : Handler E Q Ent}
    {M : Option Nat} {n : Nat} (hh : ∀ r, (∀ m ∈ M, J.answer A m r ≠ .error .fuel) → Φ (h r))
    (hg : ∀ m ∈ M, ∀ r, Gives G (Faith (fun m => J.answer A m r) n) (h r)) {e : Ent} {q : QualifierQuery Q}
    {s : StatInst E} (he : J.world.isStat e = true) (hs : Storable (E.layout s.ty))
    (hr : ∀ m ∈ M, J.answer A (m + 1) (.stat e q s) ≠ .error .fuel) : Φ (J.compute A h e q s) := by
  obtain ⟨v, hv⟩ := hJ.startValue s hs
  rw [J.compute_eq, hv, CProg.lift_ok, CProg.bind_ret]
  refine hΦ.calls hh hg (hJ.statCalls e q) (hn.stat e q) _ ⟨v, rfl⟩ fun m hm hc => hr m hm ?_
  rw [J.answer_succ]
  simp only [Joined.ideal, validate_eq, if_pos hs, he, if_true, hv, Res.bind_ok]
  rw [hc]; rfl

theorem Tame.typed {Φ : ∀ {β : Type}, CProg E Q Ent β → Prop} (hΦ : Tame G Φ) {h : Handler E Q Ent}
    {M : Option Nat} {n : Nat} (hh : ∀ r, (∀ m ∈ M, J.answer A m r ≠ .error .fuel) → Φ (h r))
    (hg : ∀ m ∈ M, ∀ r, Gives G (Faith (fun m => J.answer A m r) n) (h r)) (r : Req E Q Ent)
    (hr : ∀ m ∈ M, J.answer A (m + 1) r ≠ .error .fuel)
    (hstat : ∀ e q s, r = .stat e q s → ∀ x, Φ x → Gives G (Keeps s) x → Φ (J.around e q s x)) :
    Φ (J.typed A h r) := by
  have hval : ∀ {β : Type} (s : StatInst E) (f : Unit → CProg E Q Ent β),
      (Storable (E.layout s.ty) → Φ (f ())) → Φ ((CProg.lift (validate (E.layout s.ty))).bind f) := by
    intro β s f hf
    rw [validate_eq]
    split
    · rename_i hs; exact hf hs
    · exact hΦ.fail _
  cases r with
  | stat e q s =>
    refine hval s _ fun hs => hΦ.bind ?_ (Gives.any _) fun o _ => hΦ.lift _
    rw [Joined.queryStatErased_around]
    split
    · rename_i he
      exact hstat e q s rfl _ (hΦ.compute hJ hn hh hg he hs hr) (hJ.compute_keeps h e q hs)
    · exact hΦ.ret _
  | relation a b q s =>
    refine hval s _ fun hs => hΦ.bind ?_ (Gives.any _) fun o _ => hΦ.lift _
    rw [J.queryRelationErased_eq]
    split
    · rename_i he
      obtain ⟨v, hv⟩ := hJ.startValue s hs
      rw [hv, CProg.lift_ok, CProg.bind_ret]
      refine hΦ.bind (hΦ.calls hh hg (hJ.relationCalls a b q) (hn.relation a b q) _ ⟨v, rfl⟩ fun m hm hc =>
        hr m hm ?_) (Gives.any _) fun p _ => hΦ.ret _
      rw [J.answer_succ]
      simp only [Joined.ideal, validate_eq, if_pos hs, he, if_true, hv, Res.bind_ok]
      rw [hc]; rfl
    · exact hΦ.ret _
  | attr e a =>
    change Φ (J.hasAttributeErased h e a)
    rw [J.hasAttributeErased_eq]
    exact hΦ.anyCode hh hg (hn.attr e a) fun m hm hc => hr m hm (by rw [J.answer_succ]; exact hc)

end queries

/-- looking up and storing another key -/
theorem Tame.around {Φ : ∀ {β : Type}, CProg E Q Ent β → Prop} (hΦ : Tame G Φ) (e : Ent) (q : QualifierQuery Q)
    (s : StatInst E) (hget : ∀ {β : Type} (f : Option (Buf E) → CProg E Q Ent β), (∀ o, Φ (f o)) →
      Φ (.get ⟨e, q, s⟩ f))
    (hput : ∀ (b : Buf E), Φ (.put ⟨e, q, s⟩ b (.ret ()) : CProg E Q Ent Unit))
    (x : CProg E Q Ent (Pair E)) (hx : Φ x) (hk : Gives G (Keeps s) x) : Φ (J.around e q s x) := by
  refine hΦ.bind ?_ (Gives.any _) fun o _ => ?_
  · unfold Joined.lookup
    split
    · exact hget _ fun o => hΦ.lift _
    · exact hΦ.ret _
  · cases o with
    | some b => exact hΦ.ret _
    | none =>
      refine hΦ.bind hx hk fun p hp => hΦ.bind ?_ (Gives.any _) fun _ _ => hΦ.ret _
      unfold Joined.remember
      split
      · refine hΦ.bind (hΦ.lift _) (Gives.any _) fun b _ => ?_
        obtain ⟨s', v⟩ := p
        cases hp
        exact hput b
      · exact hΦ.ret _

section queries
variable (hJ : J.Safe A) (hn : J.NoStore)
include hJ hn

/-- a query does not store what is cached already -/
theorem handle_shut (G : CacheKey E Q Ent → Option (Buf E) → Prop) (k : CacheKey E Q Ent) (n : Nat)
    (r : Req E Q Ent) : Shut G k (J.handle A n r) := by
  induction n generalizing r with
  | zero => trivial
  | succ n ih =>
    refine Shut.tame.typed (M := none) (n := 0) hJ hn (fun r _ => ih r) (fun m hm => by cases hm) r
      (fun m hm => by cases hm) ?_
    rintro e q s - x hx hk
    by_cases hne : (⟨e, q, s⟩ : CacheKey E Q Ent) = k
    · unfold Joined.around Joined.lookup
      split
      · intro o ho
        cases o with
        | none => exact absurd rfl (ho.2 hne)
        | some b =>
          simp only [Defaults.cloned]
          cases vtClone s.vt b with
          | ok b' => trivial
          | error x => trivial
      · rename_i hc
        refine Shut.bind (P := fun _ => True) trivial trivial fun o _ => ?_
        cases o with
        | some b => trivial
        | none =>
          refine Shut.bind hx (Gives.any _) fun p _ => ?_
          simp only [Joined.remember, if_neg hc]
          trivial
    · exact Shut.tame.around e q s (fun f hf o _ => hf o) (fun b => ⟨hne, trivial⟩) x hx hk

/-- a query with an outcome at a depth at which that of the key has none yet neither looks the key up nor stores
it -/
theorem handle_avoids (k : CacheKey E Q Ent) (d : Nat)
    (hk : J.answer A d (.stat k.entity k.query k.stat) = .error .fuel) (n m : Nat) (hm : m ≤ d) (r : Req E Q Ent)
    (hr : J.answer A m r ≠ .error .fuel) : Avoids (ValidGet A J) k (J.handle A n r) := by
  induction n generalizing r m with
  | zero => trivial
  | succ n ih =>
    cases m with
    | zero => exact absurd rfl hr
    | succ m =>
      refine Avoids.tame.typed (M := some m) (n := n) hJ hn (fun r' h => ih m (by omega) r' (h m rfl))
        (fun m _ r => ((hJ.honest hn).right.faithful n r).gives) r (fun m' hm' => by cases hm'; exact hr) ?_
      rintro e q s rfl x hx hs
      have hne : (⟨e, q, s⟩ : CacheKey E Q Ent) ≠ k := by
        rintro rfl
        exact hr (by
          by_contra h
          exact h ((answer_mono (.stat e q s) (m + 1) d hm h).symm.trans hk))
      exact Avoids.tame.around e q s (fun f hf => ⟨hne, fun o _ => hf o⟩) (fun b => ⟨hne, trivial⟩) x hx hs

/-- a query stores a key at most once, as long as nothing is removed from the cache -/
theorem handle_once (k : CacheKey E Q Ent) (n : Nat) (r : Req E Q Ent) :
    Once (ValidGet A J) k (J.handle A n r) := by
  induction n generalizing r with
  | zero => trivial
  | succ n ih =>
    by_cases hk : r = .stat k.entity k.query k.stat
    · obtain ⟨e, q, s⟩ := k
      subst hk
      have hf := fun r => ((hJ.honest hn).right.faithful (A := A) n r).gives
      change Once _ _ ((CProg.lift (validate (E.layout s.ty))).bind fun _ =>
        (J.queryStatErased A (J.handle A n) e q s).bind fun o => CProg.lift (StatMap.readAs s o))
      rw [validate_eq]
      split
      swap
      · trivial
      rename_i hs
      rw [CProg.lift_ok, CProg.bind_ret]
      refine Once.bind (P := fun _ => True) ?_ (Gives.any _) fun o _ => Once.tame.lift _
      rw [Joined.queryStatErased_around]
      split
      swap
      · trivial
      rename_i he
      have hx : Once (ValidGet A J) ⟨e, q, s⟩ ((J.compute A (J.handle A n) e q s).bind fun p =>
          (J.remember e q p).bind fun _ => .ret (some p.value)) := by
        by_cases hd : ∃ d, J.answer A d (.stat e q s) ≠ .error .fuel
        · obtain ⟨d, hd, hmin⟩ : ∃ d, J.answer A (d + 1) (.stat e q s) ≠ .error .fuel ∧
              J.answer A d (.stat e q s) = .error .fuel := by
            obtain ⟨d, hd⟩ := hd
            induction d with
            | zero => exact absurd rfl hd
            | succ d ihd =>
              by_cases h : J.answer A d (.stat e q s) = .error .fuel
              · exact ⟨d, hd, h⟩
              · exact ihd h
          have hc : Avoids (ValidGet A J) ⟨e, q, s⟩ (J.compute A (J.handle A n) e q s) :=
            Avoids.tame.compute (M := some d) (n := n) hJ hn
              (fun r h => handle_avoids hJ hn _ d hmin n d (Nat.le_refl d) r (h d rfl)) (fun _ _ r => hf r) he hs
              (fun m hm => by cases hm; exact hd)
          refine hc.bind_once (Gives.any _) fun p _ => ?_
          unfold Joined.remember
          split
          · unfold CProg.cachePair
            cases p.cloneBuffer with
            | ok b => exact ⟨trivial, fun _ => trivial⟩
            | error x => trivial
          · trivial
        · have hc := (Once.tame (k := ⟨e, q, s⟩)).compute (q := q) (M := none) (n := n) hJ hn
            (fun r _ => ⟨ih r, handle_shut hJ hn (ValidGet A J) _ n r⟩) (fun _ _ r => hf r) he hs
            (fun m hm => by cases hm)
          obtain ⟨v, hv⟩ := hJ.startValue s hs
          have hg : Gives (ValidGet A J) (Faith (fun m => runCalls (J.answer A m) (J.statCalls e q) ⟨s, .val s.ty v⟩) n)
              (J.compute A (J.handle A n) e q s) := by
            rw [J.compute_eq, hv, CProg.lift_ok, CProg.bind_ret]
            exact Faith.calls answer_mono hf _ _ (CallsOk.of_noStore (hn.stat e q) _)
          refine hc.1.bind hg fun p hp => absurd ?_ hd
          obtain ⟨m, hm⟩ := hp.2 (by simp)
          refine ⟨m + 1, ?_⟩
          rw [J.answer_succ]
          simp only [Joined.ideal, validate_eq, if_pos hs, he, if_true, hv, Res.bind_ok, hm]
          have := Buf.read_ne_fuel s.ty p.value
          cases h : p.value.read s.ty with
          | ok x => intro h'; cases h'
          | error x =>
            rw [h] at this
            intro h'
            cases h'
            exact this rfl
      unfold Joined.around Joined.lookup
      split
      · intro o _
        cases o with
        | none => exact ⟨hx, fun _ h => absurd rfl h⟩
        | some b =>
          simp only [Defaults.cloned]
          cases vtClone s.vt b with
          | ok b' => exact ⟨trivial, fun _ _ => trivial⟩
          | error x => exact ⟨trivial, fun _ _ => trivial⟩
      · exact hx
    · refine (Once.tame.typed (M := none) (n := n) hJ hn (fun r' _ => ⟨ih r', handle_shut hJ hn _ k n r'⟩)
        (fun m hm => by cases hm) r (fun m hm => by cases hm) ?_).1
      rintro e q s rfl x hx hs
      have hne : (⟨e, q, s⟩ : CacheKey E Q Ent) ≠ k := by
        rintro rfl
        exact hk rfl
      exact Once.tame.around e q s
        (fun f hf => ⟨fun o _ => ⟨(hf o).1, fun h => absurd h hne⟩, fun o _ => (hf o).2⟩)
        (fun b => ⟨⟨trivial, fun h => absurd h hne⟩, hne, trivial⟩) x hx hs

end queries

/-! ### threads -/

section threads
variable [DecidableEq Q] [DecidableEq Ent]

theorem Move.step {a b : Conf E Q Ent} {o} (h : Move A J a o b) : Step A J a b := by
  cases h with
  | start c ts n r => exact .start c ts n r
  | get c ts i n r k f h => exact .get c ts i n r k f h
  | put c ts i n r k b f h => exact .put c ts i n r k b f h

theorem Stretch.reachable {a b : Conf E Q Ent} {l} (h : Stretch A J a l b) (ha : Reachable A J a) :
    Reachable A J b := by
  induction h with
  | refl => exact ha
  | move _ hm ih => exact ih.step hm.step

/-- in any reachable configuration, each thread stores each key at most once until the cache is next cleared -/
theorem reachable_once (hJ : J.Safe A) (hn : J.NoStore) {s : Conf E Q Ent} (hs : Reachable A J s)
    (k : CacheKey E Q Ent) : ∀ t ∈ s.threads, Once (ValidGet A J) k t.code := by
  induction hs with
  | init => intro t ht; cases ht
  | step hr hst ih =>
    have hset : ∀ {ts : List (Thread E Q Ent)} (i : Nat) (t' : Thread E Q Ent),
        (∀ t ∈ ts, Once (ValidGet A J) k t.code) → Once (ValidGet A J) k t'.code →
        ∀ t ∈ ts.set i t', Once (ValidGet A J) k t.code := by
      intro ts i t' h1 h2 t ht
      rcases List.mem_or_eq_of_mem_set ht with h | rfl
      · exact h1 t h
      · exact h2
    cases hst with
    | start c ts n r =>
      intro t ht
      rcases List.mem_append.1 ht with h | h
      · exact ih t h
      · cases List.mem_singleton.1 h
        exact handle_once hJ hn k n r
    | get c ts i n r j f h =>
      exact hset i _ ih (ih _ (List.mem_of_getElem? h) _ ((hr.invariant (hJ.honest hn).right).1.get j)).1
    | put c ts i n r j b f h => exact hset i _ ih (ih _ (List.mem_of_getElem? h)).1
    | clear c c' ts h => exact ih
    | wipe c c' ts i n r f h hc => exact hset i _ ih (ih _ (List.mem_of_getElem? h) :)
    | wipeFail c e ts i n r f h hc => exact hset i _ ih trivial

/-- what is cached stays cached during a stretch -/
theorem Move.keeps {a b : Conf E Q Ent} {o} (h : Move A J a o b) {k : CacheKey E Q Ent}
    (hk : HMap.get (CacheKey.eq A) a.cache k ≠ none) : HMap.get (CacheKey.eq A) b.cache k ≠ none := by
  cases h with
  | start => exact hk
  | get => exact hk
  | put c ts i n r j b f h =>
    change HMap.get _ (HMap.insert (CacheKey.eq A) c j b).1 k ≠ none
    rw [HMap.get_insert (CacheKey.eq_iff A)]
    split
    · simp
    · exact hk

/-- threads that existed before a step or are new -/
theorem Move.threads {a b : Conf E Q Ent} {o} (h : Move A J a o b)
    (hG : ∀ j, G j (HMap.get (CacheKey.eq A) a.cache j)) {i : Nat} {t : Thread E Q Ent}
    (ht : b.threads[i]? = some t) :
    (∃ t', a.threads[i]? = some t' ∧ ∀ k : CacheKey E Q Ent, HMap.get (CacheKey.eq A) a.cache k ≠ none →
      Shut G k t'.code → Shut G k t.code ∧ o ≠ some (i, k)) ∨
    a.threads.length ≤ i ∧ o = none ∧ ∃ n r, t = ⟨n, r, J.handle A n r⟩ := by
  cases h with
  | start c ts n r =>
    rcases Nat.lt_or_ge i ts.length with hi | hi
    · rw [List.getElem?_append_left hi] at ht
      exact .inl ⟨t, ht, fun k _ h => ⟨h, by simp⟩⟩
    · refine .inr ⟨hi, rfl, n, r, ?_⟩
      rw [List.getElem?_append_right hi] at ht
      exact (List.mem_singleton.1 (List.mem_of_getElem? ht))
  | get c ts i' n r j f h =>
    left
    by_cases hi : i' = i
    · subst hi
      refine ⟨_, h, fun k hk hs => ⟨?_, by simp⟩⟩
      rw [List.getElem?_set_self' , h] at ht
      cases ht
      exact hs _ ⟨hG j, fun hj => by subst hj; exact hk⟩
    · rw [List.getElem?_set_ne hi] at ht
      exact ⟨t, ht, fun k _ h => ⟨h, by simp⟩⟩
  | put c ts i' n r j b f h =>
    left
    by_cases hi : i' = i
    · subst hi
      refine ⟨_, h, fun k hk hs => ⟨?_, ?_⟩⟩
      · rw [List.getElem?_set_self', h] at ht
        cases ht
        exact hs.2
      · intro h'
        cases h'
        exact hs.1 rfl
    · rw [List.getElem?_set_ne hi] at ht
      exact ⟨t, ht, fun k _ h => ⟨h, by simp [hi]⟩⟩

/-- the thread that stores exists -/
theorem Move.storer {a b : Conf E Q Ent} {i : Nat} {k : CacheKey E Q Ent} (h : Move A J a (some (i, k)) b) :
    ∃ n r x f, a.threads[i]? = some ⟨n, r, .put k x f⟩ ∧ b.threads[i]? = some ⟨n, r, f⟩ ∧
      HMap.get (CacheKey.eq A) b.cache k ≠ none := by
  cases h with
  | put c ts _ n r _ x f h =>
    refine ⟨n, r, x, f, h, ?_, ?_⟩
    · rw [List.getElem?_set_self', h]; rfl
    · change HMap.get _ (HMap.insert (CacheKey.eq A) c k x).1 k ≠ none
      rw [HMap.get_insert (CacheKey.eq_iff A)]
      simp

/-- C115: a value in the cache is overwritten, until it is cleared, only by queries that were already in progress:
those started later find it -/
theorem C115_late (hJ : J.Safe A) (hn : J.NoStore) {a b : Conf E Q Ent} {l : List (Nat × CacheKey E Q Ent)}
    (h : Stretch A J a l b) (k : CacheKey E Q Ent) (hk : HMap.get (CacheKey.eq A) a.cache k ≠ none) :
    ∀ i, (i, k) ∈ l → i < a.threads.length := by
  suffices hinv : HMap.get (CacheKey.eq A) b.cache k ≠ none ∧ (∀ i t, a.threads.length ≤ i → b.threads[i]? = some t →
      Shut (fun _ _ => True) k t.code) ∧ ∀ i, (i, k) ∈ l → i < a.threads.length from hinv.2.2
  induction h with
  | refl =>
    refine ⟨hk, fun i t hi ht => ?_, fun i hi => by cases hi⟩
    rw [List.getElem?_eq_none hi] at ht
    cases ht
  | @move l b o c _ hm ih =>
    obtain ⟨h1, h2, h3⟩ := ih
    refine ⟨hm.keeps h1, fun i t hi ht => ?_, fun i hi => ?_⟩
    · rcases hm.threads (G := fun _ _ => True) (fun _ => trivial) ht with ⟨t', ht', hs⟩ | ⟨_, _, n, r, rfl⟩
      · exact (hs k h1 (h2 i t' hi ht')).1
      · exact handle_shut hJ hn _ k n r
    · rcases List.mem_append.1 hi with hi | hi
      · exact h3 i hi
      · obtain rfl : o = some (i, k) := by
          cases o with
          | none => cases hi
          | some x => rw [List.mem_singleton.1 hi]
        by_contra hlt
        obtain ⟨n, r, x, f, hs, -⟩ := hm.storer
        exact (h2 i _ (by omega) hs).1 rfl

theorem Move.length_le {a b : Conf E Q Ent} {o} (h : Move A J a o b) : a.threads.length ≤ b.threads.length := by
  cases h <;> simp

/-- C115: until the cache is cleared, no query stores the same key twice, whatever the others do meanwhile -/
theorem C115_once (hJ : J.Safe A) (hn : J.NoStore) {a b : Conf E Q Ent} {l : List (Nat × CacheKey E Q Ent)}
    (ha : Reachable A J a) (h : Stretch A J a l b) : l.Nodup := by
  suffices hinv : (∀ i k, (i, k) ∈ l → i < b.threads.length ∧ HMap.get (CacheKey.eq A) b.cache k ≠ none ∧
      ∀ t, b.threads[i]? = some t → Shut (ValidGet A J) k t.code) ∧ l.Nodup from hinv.2
  induction h with
  | refl => exact ⟨fun i k hi => (by cases hi), List.nodup_nil⟩
  | @move l b o c hst hm ih =>
    obtain ⟨h1, h2⟩ := ih
    have hb := hst.reachable ha
    have hv := (hb.invariant (hJ.honest hn).right).1
    refine ⟨fun i k hi => ?_, ?_⟩
    · rcases List.mem_append.1 hi with hi | hi
      · obtain ⟨hlt, hk, hs⟩ := h1 i k hi
        refine ⟨Nat.lt_of_lt_of_le hlt hm.length_le, hm.keeps hk, fun t ht => ?_⟩
        rcases hm.threads (fun j => hv.get j) ht with ⟨t', ht', hs'⟩ | ⟨hle, _⟩
        · exact (hs' k hk (hs t' ht')).1
        · omega
      · obtain rfl : o = some (i, k) := by
          cases o with
          | none => cases hi
          | some x => rw [List.mem_singleton.1 hi]
        obtain ⟨n, r, x, f, hs, hs', hk⟩ := hm.storer
        refine ⟨?_, hk, fun t ht => ?_⟩
        · by_contra hge
          rw [List.getElem?_eq_none (by omega)] at hs'
          cases hs'
        · rw [hs'] at ht
          cases ht
          exact (reachable_once hJ hn hb k _ (List.mem_of_getElem? hs)).2 rfl
    · cases o with
      | none => simpa using h2
      | some x =>
        obtain ⟨i, k⟩ := x
        refine List.nodup_append.2 ⟨h2, List.nodup_singleton _, ?_⟩
        rintro ⟨i', k'⟩ hx y hy rfl
        cases List.mem_singleton.1 hy
        obtain ⟨n, r, x, f, hs, -⟩ := hm.storer
        exact ((h1 i k hx).2.2 _ hs).1 rfl

/-- C115: a query that has returned stores nothing any more -/
theorem C115_running {a b : Conf E Q Ent} {l : List (Nat × CacheKey E Q Ent)}
    (h : Stretch A J a l b) (i : Nat) (t : Thread E Q Ent) (ht : a.threads[i]? = some t)
    (k : CacheKey E Q Ent) (hi : (i, k) ∈ l) : t.running = true := by
  by_contra hr
  suffices hinv : b.threads[i]? = some t ∧ (i, k) ∉ l from hinv.2 hi
  clear hi
  induction h with
  | refl => exact ⟨ht, by simp⟩
  | @move l b o c _ hm ih =>
    obtain ⟨h1, h2⟩ := ih
    have hne : ∀ n r f, b.threads[i]? ≠ some ⟨n, r, .get k f⟩ := by
      intro n r f h
      rw [h1] at h
      cases h
      exact hr rfl
    cases hm with
    | start c ts n r =>
      refine ⟨?_, by simpa using h2⟩
      rw [List.getElem?_append_left]
      · exact h1
      · by_contra hge
        rw [List.getElem?_eq_none (by simpa using hge)] at h1
        cases h1
    | get c ts i' n r j f h =>
      have : i' ≠ i := by
        rintro rfl
        rw [h] at h1
        cases h1
        exact hr rfl
      exact ⟨by rw [List.getElem?_set_ne this]; exact h1, by simpa using h2⟩
    | put c ts i' n r j b f h =>
      have : i' ≠ i := by
        rintro rfl
        rw [h] at h1
        cases h1
        exact hr rfl
      exact ⟨by rw [List.getElem?_set_ne this]; exact h1, by simpa [h2] using fun h => (this h.symm).elim⟩

theorem Stretch.trans {a b c : Conf E Q Ent} {l l'} (h : Stretch A J a l b) (h' : Stretch A J b l' c) :
    Stretch A J a (l ++ l') c := by
  induction h' with
  | refl => simpa using h
  | move _ hm ih => rw [← List.append_assoc]; exact ih.move hm

/-- as many different positions of elements with a property as there are such elements -/
theorem nodup_positions {p : α → Bool} {ts : List α} {l : List Nat} (hl : l.Nodup)
    (h : ∀ i ∈ l, ∃ t, ts[i]? = some t ∧ p t = true) : l.length ≤ ts.countP p := by
  induction ts generalizing l with
  | nil =>
    cases l with
    | nil => simp
    | cons i l => obtain ⟨t, ht, -⟩ := h i (by simp); simp at ht
  | cons t ts ih =>
    have h1 := ih (l := (l.erase 0).map Nat.pred) ?_ ?_
    · rw [List.length_map] at h1
      rw [List.countP_cons]
      by_cases h0 : 0 ∈ l
      · obtain ⟨t', ht', hp⟩ := h 0 h0
        cases ht'
        rw [List.length_erase_of_mem h0] at h1
        simp only [hp, if_true]
        omega
      · rw [List.erase_of_not_mem h0] at h1
        omega
    · refine (hl.erase 0).map_on ?_
      intro x hx y hy hxy
      have hx0 := (List.Nodup.mem_erase_iff hl).1 hx
      have hy0 := (List.Nodup.mem_erase_iff hl).1 hy
      have := hx0.1
      have := hy0.1
      simp only [Nat.pred_eq_sub_one] at hxy
      omega
    · intro i hi
      obtain ⟨j, hj, rfl⟩ := List.mem_map.1 hi
      have hj0 := (List.Nodup.mem_erase_iff hl).1 hj
      obtain ⟨t', ht', hp⟩ := h j hj0.2
      refine ⟨t', ?_, hp⟩
      obtain ⟨j, rfl⟩ := Nat.exists_eq_succ_of_ne_zero hj0.1
      simpa using ht'

/-- C115: so, from the moment the value of a key is stored until the cache is cleared, it is overwritten at most once
by each other query that was in progress at that moment; and each time the value stored before is not dropped (C49) -/
theorem C115_overwrites (hJ : J.Safe A) (hn : J.NoStore) {a a' b : Conf E Q Ent}
    {l : List (Nat × CacheKey E Q Ent)} {i : Nat} {k : CacheKey E Q Ent} (ha : Reachable A J a)
    (h : Move A J a (some (i, k)) a') (hl : Stretch A J a' l b) :
    l.countP (fun x => CacheKey.eq A x.2 k) + 1 ≤ a.threads.countP Thread.running := by
  have hL : Stretch A J a ((i, k) :: l) b := (Stretch.refl a).move h |>.trans hl
  have hnd := C115_once hJ hn ha hL
  obtain ⟨n, r, x, f, hs, -, hk⟩ := h.storer
  have hlen : a'.threads.length = a.threads.length := by cases h; simp
  have hlt : i < a.threads.length := by
    by_contra hge
    rw [List.getElem?_eq_none (by omega)] at hs
    cases hs
  have hpos := nodup_positions (p := Thread.running) (ts := a.threads)
    (l := (((i, k) :: l).filter fun x => CacheKey.eq A x.2 k).map Prod.fst) ?_ ?_
  · rw [List.length_map, ← List.countP_eq_length_filter, List.countP_cons] at hpos
    simpa [(CacheKey.eq_iff A k k).2 rfl] using hpos
  · refine (hnd.filter _).map_on ?_
    rintro ⟨i1, k1⟩ h1 ⟨i2, k2⟩ h2 rfl
    have h1 := (CacheKey.eq_iff A _ _).1 (List.mem_filter.1 h1).2
    have h2 := (CacheKey.eq_iff A _ _).1 (List.mem_filter.1 h2).2
    simp only at h1 h2
    rw [h1, h2]
  · intro j hj
    obtain ⟨⟨j', k'⟩, hj', rfl⟩ := List.mem_map.1 hj
    obtain ⟨hj, hk'⟩ := List.mem_filter.1 hj'
    obtain rfl := (CacheKey.eq_iff A _ _).1 hk'
    have hjl : j' < a.threads.length := by
      rcases List.mem_cons.1 hj with hj | hj
      · cases hj; exact hlt
      · rw [← hlen]; exact C115_late hJ hn hl _ hk _ hj
    exact ⟨_, List.getElem?_eq_getElem hjl, C115_running hL _ _ (List.getElem?_eq_getElem hjl) _ hj⟩

end threads

/-! ### the bound is reached -/

/-- two queries that found nothing, about to store the result -/
def demoBoth : Conf demo (BitVec 8) Nat :=
  let r : Req demo (BitVec 8) Nat := .stat 0 demoQ (demoInt 0)
  let x : CProg demo (BitVec 8) Nat r.Resp := .put ⟨0, demoQ, demoInt 0⟩ (.val true (⟨211, -2147483648, 2147483647, 1⟩ : StatInt))
    (.ret (some ⟨211, -2147483648, 2147483647, 1⟩ : Option StatInt))
  ⟨[], [⟨1, r, x⟩, ⟨1, r, x⟩]⟩

theorem demoBoth_reachable : Reachable demoAddr demoJoined demoBoth := by
  have h1 := (Reachable.init (A := demoAddr) (J := demoJoined)).step
    (Step.start [] [] 1 (.stat 0 demoQ (demoInt 0)))
  have h2 := h1.step (Step.start [] _ 1 (.stat 0 demoQ (demoInt 0)))
  have h3 := h2.step (Step.get [] _ 0 1 _ _ _ rfl)
  have h4 := h3.step (Step.get [] _ 1 1 _ _ _ rfl)
  exact h4

/-- C115: the bound is reached: both queries store the value, and the second overwrites the first -/
theorem C115_tight : ∃ (J : Joined demo (BitVec 8) Nat) (a a' b : Conf demo (BitVec 8) Nat)
    (l : List (Nat × CacheKey demo (BitVec 8) Nat)) (i : Nat) (k : CacheKey demo (BitVec 8) Nat),
    J.Safe demoAddr ∧ J.NoStore ∧ Reachable demoAddr J a ∧ Move demoAddr J a (some (i, k)) a' ∧
    Stretch demoAddr J a' l b ∧
    l.countP (fun x => CacheKey.eq demoAddr x.2 k) + 1 = a.threads.countP Thread.running :=
  ⟨demoJoined, demoBoth, _, _, [(1, ⟨0, demoQ, demoInt 0⟩)], 0, ⟨0, demoQ, demoInt 0⟩, demoJoined_safe,
    demoJoined_quiet.noStore, demoBoth_reachable, Move.put _ _ 0 1 _ _ _ _ rfl,
    (Stretch.refl _).move (Move.put _ _ 1 1 _ _ _ _ rfl), by rfl⟩

end BSQ
