import Verif.Proofs.Querier
/-! # Uncached answers: recursion equation, monotonicity in the depth; faithful cached code -/
namespace BSQ
variable {E : Env} {Q Ent α β : Type}

theorem anyCode_cold (h : Handler E Q Ent) (l : List (Prog E Q Ent Bool)) :
    (anyCode h l).cold = anyCalls (fun r => (h r).cold) l := by
  induction l with
  | nil => rfl
  | cons c l ih =>
    simp only [anyCode, anyCalls, CProg.cold_bind, Prog.interp_cold]
    congr; funext b
    cases b <;> simp [ih]

namespace Joined
variable (A : Addr E) (J : Joined E Q Ent)

theorem answer_zero (r : Req E Q Ent) : J.answer A 0 r = .error .fuel := rfl

/-- uncached code for one request -/
theorem typed_cold_noCache (h : Handler E Q Ent) (r : Req E Q Ent) :
    (J.noCache.typed A h r).cold = J.ideal A (fun r => (h r).cold) r := by
  cases r with
  | stat e q s =>
    simp only [typed, ideal, CProg.bind_eq, CProg.cold_bind, CProg.cold_lift]
    congr; funext _
    unfold queryStatErased
    change (CProg.cold (if J.world.isStat e then _ else _) >>= _) = _
    cases J.world.isStat e with
    | false => rfl
    | true =>
      simp only [if_true, CProg.bind_eq, CProg.cold_bind]
      change (((CProg.ret none : CProg E Q Ent _).cold >>= _) >>= _) = _
      simp only [CProg.cold_ret, Res.bind_ok, miss, compute_eq, CProg.bind_eq, CProg.cold_bind, CProg.cold_lift,
        callsCode_cold]
      change ((World.startValue A J.world s >>= _) >>= _ ) >>= _ = _
      cases World.startValue A J.world s with
      | error e => rfl
      | ok v =>
        change (runCalls _ (J.statCalls e q) ⟨s, v⟩ >>= _) >>= _ = runCalls _ (J.statCalls e q) ⟨s, v⟩ >>= _
        cases runCalls (fun r => (h r).cold) (J.statCalls e q) ⟨s, v⟩ with
        | error e => rfl
        | ok p =>
          change (CProg.lift (StatMap.readAs s (some p.value)) : CProg E Q Ent _).cold = _
          rw [CProg.cold_lift]
          rfl
  | relation a b q s =>
    simp only [typed, ideal, CProg.bind_eq, CProg.cold_bind, CProg.cold_lift, queryRelationErased_eq]
    congr; funext _
    change (CProg.cold (if J.world.isStat a && J.world.isStat b then _ else _) >>= _) = _
    cases (J.world.isStat a && J.world.isStat b) with
    | false => rfl
    | true =>
      simp only [if_true, CProg.cold_bind, CProg.cold_lift, callsCode_cold]
      change ((World.startValue A J.world s >>= _) >>= _ ) = _
      cases World.startValue A J.world s with
      | error e => rfl
      | ok v =>
        change (runCalls _ (J.relationCalls a b q) ⟨s, v⟩ >>= _) >>= _ =
          runCalls _ (J.relationCalls a b q) ⟨s, v⟩ >>= _
        cases runCalls (fun r => (h r).cold) (J.relationCalls a b q) ⟨s, v⟩ with
        | error e => rfl
        | ok p =>
          change (CProg.lift (StatMap.readAs s (some p.value)) : CProg E Q Ent _).cold = _
          rw [CProg.cold_lift]
          rfl
  | attr e a =>
    simp only [typed, ideal, hasAttributeErased_eq]
    exact anyCode_cold h _

/-- an answer is obtained from the answers of one level less -/
theorem answer_succ (n : Nat) (r : Req E Q Ent) : J.answer A (n + 1) r = J.ideal A (J.answer A n) r :=
  J.typed_cold_noCache A _ r

end Joined

/-! ### monotonicity -/

/-- `y` is what `x` would be with more depth -/
def Res.Le (x y : Res α) : Prop := x ≠ .error .fuel → y = x

theorem Res.Le.refl (x : Res α) : Res.Le x x := fun _ => rfl

theorem Res.Le.bind {x y : Res α} {f g : α → Res β} (h : Res.Le x y) (hf : ∀ a, Res.Le (f a) (g a)) :
    Res.Le (x >>= f) (y >>= g) := by
  intro hne
  cases x with
  | ok a =>
    rw [h (by simp)]
    exact hf a hne
  | error e =>
    have : e ≠ .fuel := by rintro rfl; exact hne rfl
    rw [h (by simpa using this)]
    rfl

theorem Res.Le.attempt {x y : Res α} (h : Res.Le x y) : Res.Le x.attempt y.attempt := by
  intro hne
  rw [h (by rintro rfl; exact hne rfl)]

theorem Prog.eval_le {o o' : Oracle E Q Ent} (h : ∀ r, Res.Le (o r) (o' r)) (p : Prog E Q Ent α) :
    Res.Le (p.eval o) (p.eval o') := by
  induction p with
  | ret a => exact .refl _
  | fail e => exact .refl _
  | ask r k ih => exact (h r).bind ih
  | attempt r k ih => exact (h r).attempt.bind ih
  | clear k ih => exact ih
  | store e q p k ih => exact (Res.Le.refl _).bind fun _ => ih

theorem runCalls_le {o o' : Oracle E Q Ent} (h : ∀ r, Res.Le (o r) (o' r)) (l : List (Call E Q Ent))
    (p : Pair E) : Res.Le (runCalls o l p) (runCalls o' l p) := by
  induction l generalizing p with
  | nil => exact .refl _
  | cons c l ih => exact (Prog.eval_le h (c p)).bind ih

theorem anyCalls_le {o o' : Oracle E Q Ent} (h : ∀ r, Res.Le (o r) (o' r)) (l : List (Prog E Q Ent Bool)) :
    Res.Le (anyCalls o l) (anyCalls o' l) := by
  induction l with
  | nil => exact .refl _
  | cons c l ih =>
    refine (Prog.eval_le h c).bind (fun b => ?_)
    cases b
    · exact ih
    · exact .refl _

theorem Joined.ideal_le (A : Addr E) (J : Joined E Q Ent) {o o' : Oracle E Q Ent}
    (h : ∀ r, Res.Le (o r) (o' r)) (r : Req E Q Ent) : Res.Le (J.ideal A o r) (J.ideal A o' r) := by
  cases r with
  | stat e q s =>
    refine (Res.Le.refl _).bind (fun _ => ?_)
    cases J.world.isStat e with
    | false => exact .refl _
    | true => exact (Res.Le.refl _).bind (fun v => (runCalls_le h _ _).bind (fun p => .refl _))
  | relation a b q s =>
    refine (Res.Le.refl _).bind (fun _ => ?_)
    cases J.world.isStat a && J.world.isStat b with
    | false => exact .refl _
    | true => exact (Res.Le.refl _).bind (fun v => (runCalls_le h _ _).bind (fun p => .refl _))
  | attr e a => exact anyCalls_le h _

theorem Joined.answer_le (A : Addr E) (J : Joined E Q Ent) {n m : Nat} (hnm : n ≤ m) (r : Req E Q Ent) :
    Res.Le (J.answer A n r) (J.answer A m r) := by
  induction n generalizing m r with
  | zero => intro h; exact absurd (J.answer_zero A r) h
  | succ n ih =>
    obtain ⟨m, rfl⟩ : ∃ k, m = k + 1 := ⟨m - 1, by omega⟩
    rw [J.answer_succ, J.answer_succ]
    exact J.ideal_le A (fun r => ih (by omega) r) r

/-- two answers that did not run out of depth agree -/
theorem Joined.answer_unique (A : Addr E) (J : Joined E Q Ent) {n m : Nat} {r : Req E Q Ent}
    (hn : J.answer A n r ≠ .error .fuel) (hm : J.answer A m r ≠ .error .fuel) :
    J.answer A n r = J.answer A m r := by
  rw [← J.answer_le A (Nat.le_max_left n m) r hn, ← J.answer_le A (Nat.le_max_right n m) r hm]

/-! ### families indexed by the depth -/

/-- more depth does not change an outcome -/
def DepthMono (X : Nat → Res α) : Prop := ∀ n m, n ≤ m → Res.Le (X n) (X m)

theorem DepthMono.const (x : Res α) : DepthMono (fun _ => x) := fun _ _ _ => .refl _

theorem DepthMono.bind {X : Nat → Res α} {F : Nat → α → Res β} (hX : DepthMono X)
    (hF : ∀ a, DepthMono (fun n => F n a)) : DepthMono (fun n => X n >>= F n) :=
  fun n m h => (hX n m h).bind (fun a => hF a n m h)

theorem DepthMono.attempt {X : Nat → Res α} (hX : DepthMono X) : DepthMono (fun n => (X n).attempt) :=
  fun n m h => (hX n m h).attempt

/-- see `Faithful` -/
def Faith (X : Nat → Res α) (n : Nat) (res : Res α) : Prop :=
  (X n ≠ .error .fuel → res = X n) ∧ (res ≠ .error .fuel → ∃ m, X m = res)

theorem Faith.self (X : Nat → Res α) (n : Nat) : Faith X n (X n) := ⟨fun _ => rfl, fun _ => ⟨n, rfl⟩⟩

section
variable {okGet : CacheKey E Q Ent → Option (Buf E) → Prop} {okPut : CacheKey E Q Ent → Buf E → Prop}

theorem Faith.bind {X : Nat → Res α} {F : Nat → α → Res β} {n : Nat} {x : CProg E Q Ent α}
    {f : α → CProg E Q Ent β} (hx : CProg.Good okGet okPut (Faith X n) x) (hX : DepthMono X)
    (hF : ∀ a, DepthMono (fun n => F n a))
    (hf : ∀ a, (∃ m, X m = .ok a) → CProg.Good okGet okPut (Faith (fun m => F m a) n) (f a)) :
    CProg.Good okGet okPut (Faith (fun m => X m >>= F m) n) (x.bind f) := by
  refine hx.bind (fun a ha => ?_) (fun e he => ?_)
  · obtain ⟨m0, hm0⟩ := ha.2 (by simp)
    refine (hf a ⟨m0, hm0⟩).mono (fun r hr => ⟨fun hne => ?_, fun hne => ?_⟩)
    · have hn : X n ≠ .error .fuel := by
        intro h; simp only [h] at hne; exact hne rfl
      have hXn := (ha.1 hn).symm
      simp only [hXn] at hne ⊢
      exact hr.1 hne
    · obtain ⟨m1, hm1⟩ := hr.2 hne
      refine ⟨max m0 m1, ?_⟩
      have h1 := hX m0 (max m0 m1) (Nat.le_max_left _ _) (by rw [hm0]; simp)
      have h2 := hF a m1 (max m0 m1) (Nat.le_max_right _ _) (by rw [hm1]; exact hne)
      simp only at h2
      simp only [h1, hm0, Res.bind_ok, h2, hm1]
  · refine ⟨fun hne => ?_, fun hne => ?_⟩
    · have hn : X n ≠ .error .fuel := by
        intro h; simp only [h] at hne; exact hne rfl
      have hXn := (he.1 hn).symm
      simp [hXn]
    · have : e ≠ .fuel := by rintro rfl; exact hne rfl
      obtain ⟨m, hm⟩ := he.2 (by simpa using this)
      exact ⟨m, by simp [hm]⟩

theorem Res.attempt_fuel {x : Res α} : x.attempt = .error .fuel ↔ x = .error .fuel := by
  rcases x with (_ | _ | _) | a <;> simp [Res.attempt]

theorem CProg.Good.attempt {P : Res α → Prop} {R : Res (Option α) → Prop} {x : CProg E Q Ent α}
    (hx : CProg.Good okGet okPut P x) (h : ∀ r, P r → R r.attempt) : CProg.Good okGet okPut R x.attempt := by
  induction x with
  | ret a => exact h _ hx
  | fail e => cases e <;> exact h _ hx
  | get k g ih => exact fun o ho => ih o (hx o ho)
  | put k b g ih => exact ⟨hx.1, ih hx.2⟩
  | clear g ih => exact ih hx

theorem Faith.attempt {X : Nat → Res α} {n : Nat} {x : CProg E Q Ent α}
    (hx : CProg.Good okGet okPut (Faith X n) x) :
    CProg.Good okGet okPut (Faith (fun m => (X m).attempt) n) x.attempt :=
  hx.attempt fun r hr => ⟨fun hne => by rw [hr.1 fun h => hne (by simp only [h]; rfl)], fun hne => by
    obtain ⟨m, hm⟩ := hr.2 fun h => hne (by rw [h]; rfl)
    exact ⟨m, by simp only [hm]⟩⟩

theorem Faith.const (n : Nat) (x : Res α) :
    CProg.Good okGet okPut (Faith (fun _ => x) n) (CProg.lift x : CProg E Q Ent α) :=
  CProg.Good.lift (Faith.self (fun _ => x) n)

theorem DepthMono.eval {o : Nat → Oracle E Q Ent} (ho : ∀ r, DepthMono (fun n => o n r))
    (p : Prog E Q Ent α) : DepthMono (fun n => p.eval (o n)) :=
  fun n m h => Prog.eval_le (fun r => ho r n m h) p

theorem DepthMono.calls {o : Nat → Oracle E Q Ent} (ho : ∀ r, DepthMono (fun n => o n r))
    (l : List (Call E Q Ent)) (p : Pair E) : DepthMono (fun n => runCalls (o n) l p) :=
  fun n m h => runCalls_le (fun r => ho r n m h) l p

theorem DepthMono.any {o : Nat → Oracle E Q Ent} (ho : ∀ r, DepthMono (fun n => o n r))
    (l : List (Prog E Q Ent Bool)) : DepthMono (fun n => anyCalls (o n) l) :=
  fun n m h => anyCalls_le (fun r => ho r n m h) l

variable {o : Nat → Oracle E Q Ent} {h : Handler E Q Ent} {n : Nat}

/-- the code stores a pair only if it may, as long as its questions are answered as by `o`, with some depth -/
def Prog.StoresOk (okPut : CacheKey E Q Ent → Buf E → Prop) (o : Nat → Oracle E Q Ent) : Prog E Q Ent α → Prop
  | .ret _ => True
  | .fail _ => True
  | .ask r k => ∀ x, (∃ m, o m r = .ok x) → (k x).StoresOk okPut o
  | .attempt r k => ∀ x, (∃ m, (o m r).attempt = .ok x) → (k x).StoresOk okPut o
  | .clear k => k.StoresOk okPut o
  | .store e q p k => (∀ b, p.cloneBuffer = .ok b → okPut ⟨e, q, p.stat⟩ b) ∧ k.StoresOk okPut o

/-- the same for calls made one after another -/
def CallsOk (okPut : CacheKey E Q Ent → Buf E → Prop) (o : Nat → Oracle E Q Ent) :
    List (Call E Q Ent) → Pair E → Prop
  | [], _ => True
  | c :: cs, p => (c p).StoresOk okPut o ∧ ∀ m p', (c p).eval (o m) = .ok p' → CallsOk okPut o cs p'

theorem Faith.interp (ho : ∀ r, DepthMono (fun n => o n r))
    (hh : ∀ r, CProg.Good okGet okPut (Faith (fun m => o m r) n) (h r)) (p : Prog E Q Ent α)
    (hp : p.StoresOk okPut o) :
    CProg.Good okGet okPut (Faith (fun m => p.eval (o m)) n) (p.interp h) := by
  induction p with
  | ret a => exact Faith.self (fun _ => .ok a) n
  | fail e => exact Faith.self (fun _ => .error e) n
  | ask r k ih =>
    exact Faith.bind (X := fun m => o m r) (F := fun m x => (k x).eval (o m)) (hh r) (ho r)
      (fun a => DepthMono.eval ho (k a)) (fun a ha => ih a (hp a ha))
  | attempt r k ih =>
    exact Faith.bind (X := fun m => (o m r).attempt) (F := fun m x => (k x).eval (o m)) (Faith.attempt (hh r))
      (ho r).attempt (fun a => DepthMono.eval ho (k a)) (fun a ha => ih a (hp a ha))
  | clear k ih => exact ih hp
  | store e q p k ih =>
    exact Faith.bind (X := fun _ => p.cloneBuffer) (F := fun m _ => k.eval (o m)) (Faith.const n _)
      (DepthMono.const _) (fun _ => DepthMono.eval ho k) (fun b hb => ⟨hp.1 b (hb.elim fun _ h => h), ih hp.2⟩)

theorem Faith.calls (ho : ∀ r, DepthMono (fun n => o n r))
    (hh : ∀ r, CProg.Good okGet okPut (Faith (fun m => o m r) n) (h r)) (l : List (Call E Q Ent)) (p : Pair E)
    (hl : CallsOk okPut o l p) :
    CProg.Good okGet okPut (Faith (fun m => runCalls (o m) l p) n) (callsCode h l p) := by
  induction l generalizing p with
  | nil => exact Faith.self (fun _ => .ok p) n
  | cons c l ih =>
    exact Faith.bind (X := fun m => (c p).eval (o m)) (F := fun m x => runCalls (o m) l x)
      (Faith.interp ho hh (c p) hl.1) (DepthMono.eval ho (c p)) (fun a => DepthMono.calls ho l a)
      (fun a ha => ih a (ha.elim fun m hm => hl.2 m a hm))

theorem Faith.any (ho : ∀ r, DepthMono (fun n => o n r))
    (hh : ∀ r, CProg.Good okGet okPut (Faith (fun m => o m r) n) (h r)) (l : List (Prog E Q Ent Bool))
    (hl : ∀ c ∈ l, c.StoresOk okPut o) :
    CProg.Good okGet okPut (Faith (fun m => anyCalls (o m) l) n) (anyCode h l) := by
  induction l with
  | nil => exact Faith.self (fun _ => .ok false) n
  | cons c l ih =>
    refine Faith.bind (X := fun m => c.eval (o m)) (F := fun m b => if b then .ok true else anyCalls (o m) l)
      (Faith.interp ho hh c (hl c List.mem_cons_self)) (DepthMono.eval ho c) (fun a => ?_) (fun a _ => ?_)
    · cases a
      · exact DepthMono.any ho l
      · exact DepthMono.const _
    · cases a
      · exact ih fun c hc => hl c (List.mem_cons_of_mem _ hc)
      · exact Faith.self (fun _ => .ok true) n

end
end BSQ
