import Verif.Proofs.Fickle
/-!
# C124: streams that do not do the same each time, and worlds that change without a clear
-/
namespace BSQ
variable {E : Env} {Q Ent α β : Type} {A : Addr E} {F F' : Joined E Q Ent → Prop}

/-! ### one querier -/

theorem Prog.becomes_iff {h : Handler E Q Ent} {p : Prog E Q Ent α} {c : CProg E Q Ent α} :
    p.Becomes (fun r d => d = h r) c ↔ c = p.interp h := by
  induction p generalizing c with
  | ret a => exact .rfl
  | fail e => exact .rfl
  | ask r k ih =>
    constructor
    · rintro ⟨d, g, rfl, hg, rfl⟩
      exact congrArg _ (funext fun x => (ih x).1 (hg x))
    · rintro rfl
      exact ⟨_, _, rfl, fun x => (ih x).2 rfl, rfl⟩
  | attempt r k ih =>
    constructor
    · rintro ⟨d, g, rfl, hg, rfl⟩
      exact congrArg _ (funext fun x => (ih x).1 (hg x))
    · rintro rfl
      exact ⟨_, _, rfl, fun x => (ih x).2 rfl, rfl⟩
  | clear k ih =>
    constructor
    · rintro ⟨d, hd, rfl⟩
      rw [ih.1 hd]; rfl
    · rintro rfl
      exact ⟨_, ih.2 rfl, rfl⟩
  | store e q p k ih =>
    constructor
    · rintro ⟨d, hd, rfl⟩
      rw [ih.1 hd]; rfl
    · rintro rfl
      exact ⟨_, ih.2 rfl, rfl⟩

theorem callsBecome_iff {h : Handler E Q Ent} {l : List (Call E Q Ent)} {p : Pair E} {c : CProg E Q Ent (Pair E)} :
    CallsBecome (fun r d => d = h r) l p c ↔ c = callsCode h l p := by
  induction l generalizing p c with
  | nil => exact .rfl
  | cons f l ih =>
    constructor
    · rintro ⟨d, g, hd, hg, rfl⟩
      rw [Prog.becomes_iff.1 hd]
      exact congrArg _ (funext fun x => ih.1 (hg x))
    · rintro rfl
      exact ⟨_, _, Prog.becomes_iff.2 rfl, fun x => ih.2 rfl, rfl⟩

theorem anyBecomes_iff {h : Handler E Q Ent} {l : List (Prog E Q Ent Bool)} {c : CProg E Q Ent Bool} :
    AnyBecomes (fun r d => d = h r) l c ↔ c = anyCode h l := by
  induction l generalizing c with
  | nil => exact .rfl
  | cons f l ih =>
    constructor
    · rintro ⟨d, g, hd, hg, rfl⟩
      rw [Prog.becomes_iff.1 hd, ih.1 hg]; rfl
    · rintro rfl
      exact ⟨_, _, Prog.becomes_iff.2 rfl, ih.2 rfl, rfl⟩

theorem Joined.statCode_eq (J : Joined E Q Ent) (h : Handler E Q Ent) (e : Ent) (q : QualifierQuery Q)
    (s : StatInst E) :
    J.statCode A e q s (fun v => callsCode h (J.statCalls e q) ⟨s, v⟩) = J.typed A h (.stat e q s) := by
  unfold Joined.statCode Joined.typed Joined.queryStatErased Joined.miss
  simp only [CProg.bind_eq, J.compute_eq]
  cases J.world.isStat e <;> rfl

theorem Joined.relationCode_eq (J : Joined E Q Ent) (h : Handler E Q Ent) (a b : Ent) (q : QualifierQuery Q)
    (s : StatInst E) :
    J.relationCode A a b s (fun v => callsCode h (J.relationCalls a b q) ⟨s, v⟩) = J.typed A h (.relation a b q s) := by
  change _ = (CProg.lift (validate (E.layout s.ty))).bind fun _ => (J.queryRelationErased A h a b q s).bind fun o =>
    CProg.lift (StatMap.readAs s o)
  rw [J.queryRelationErased_eq]
  rfl

theorem Joined.becomes_iff {J : Joined E Q Ent} {h : Handler E Q Ent} {r : Req E Q Ent} {c : CProg E Q Ent r.Resp} :
    J.Becomes A (fun r d => d = h r) r c ↔ c = J.typed A h r := by
  cases r with
  | stat e q s =>
    rw [← J.statCode_eq h]
    constructor
    · rintro ⟨g, hg, rfl⟩
      exact congrArg _ (funext fun v => callsBecome_iff.1 (hg v))
    · rintro rfl
      exact ⟨_, fun v => callsBecome_iff.2 rfl, rfl⟩
  | relation a b q s =>
    rw [← J.relationCode_eq h]
    constructor
    · rintro ⟨g, hg, rfl⟩
      exact congrArg _ (funext fun v => callsBecome_iff.1 (hg v))
    · rintro rfl
      exact ⟨_, fun v => callsBecome_iff.2 rfl, rfl⟩
  | attr e a =>
    change AnyBecomes _ _ _ ↔ c = J.hasAttributeErased h e a
    rw [J.hasAttributeErased_eq]
    exact anyBecomes_iff

theorem mayRun_fixed {J : Joined E Q Ent} {n : Nat} {r : Req E Q Ent} {c : CProg E Q Ent r.Resp} :
    MayRun A (· = J) n r c ↔ c = J.handle A n r := by
  induction n generalizing r with
  | zero => exact .rfl
  | succ n ih =>
    have : MayRun A (· = J) n = fun r d => d = J.handle A n r := by
      funext r d; exact propext ih
    constructor
    · rintro ⟨_, rfl, h⟩
      rw [this] at h
      exact Joined.becomes_iff.1 h
    · intro h
      exact ⟨J, rfl, by rw [this]; exact Joined.becomes_iff.2 h⟩

theorem then_iff {x : Res α} {f : α → Res β} {y : Res β} :
    Then (· = x) (fun a => (· = f a)) y ↔ y = (x >>= f) := by
  constructor
  · rintro (⟨a, rfl, rfl⟩ | ⟨e, rfl, rfl⟩) <;> rfl
  · rintro rfl
    cases x with
    | ok a => exact .inl ⟨a, rfl, rfl⟩
    | error e => exact .inr ⟨e, rfl, rfl⟩

theorem Prog.may_eq (o : Oracle E Q Ent) (p : Prog E Q Ent α) :
    p.May (fun r x => x = o r) = fun x => x = p.eval o := by
  induction p with
  | ret a => rfl
  | fail e => rfl
  | ask r k ih =>
    unfold Prog.May
    simp only [ih]
    exact funext fun x => propext then_iff
  | attempt r k ih =>
    unfold Prog.May
    simp only [ih, exists_eq_left]
    exact funext fun x => propext then_iff
  | clear k ih => exact ih
  | store e q p k ih =>
    unfold Prog.May
    simp only [ih]
    exact funext fun x => propext then_iff

theorem callsMay_eq (o : Oracle E Q Ent) (l : List (Call E Q Ent)) (p : Pair E) :
    CallsMay (fun r x => x = o r) l p = fun x => x = runCalls o l p := by
  induction l generalizing p with
  | nil => rfl
  | cons c l ih =>
    unfold CallsMay
    rw [Prog.may_eq, funext ih]
    exact funext fun x => propext then_iff

theorem anyMay_eq (o : Oracle E Q Ent) (l : List (Prog E Q Ent Bool)) :
    AnyMay (fun r x => x = o r) l = fun x => x = anyCalls o l := by
  induction l with
  | nil => rfl
  | cons c l ih =>
    unfold AnyMay
    rw [Prog.may_eq, ih]
    have : (fun b : Bool => if b then (fun x : Res Bool => x = .ok true) else fun x => x = anyCalls o l) =
        fun b => (· = (if b then .ok true else anyCalls o l)) := by
      funext b; cases b <;> rfl
    rw [this]
    exact funext fun x => propext then_iff

theorem then_iff' {x : Res α} {K : α → Res β → Prop} {f : α → Res β} (hK : ∀ a y, K a y ↔ y = f a) {y : Res β} :
    Then (· = x) K y ↔ y = (x >>= f) := by
  have : K = fun a => (· = f a) := funext fun a => funext fun y => propext (hK a y)
  rw [this]
  exact then_iff

theorem mayBody_iff (o : Oracle E Q Ent) (l : List (Call E Q Ent)) (b : Bool) (v₀ : Res (Buf E)) (s : StatInst E)
    (x : Res (Option s.Val)) :
    Then (· = validate (E.layout s.ty)) (fun _ => if b then
        Then (· = v₀) (fun v => Then (CallsMay (fun r x => x = o r) l ⟨s, v⟩) fun p =>
          Then (· = p.value.read s.ty) fun x => (· = .ok (some x)))
      else (· = .ok none)) x ↔
    x = (validate (E.layout s.ty) >>= fun _ => if b then
        v₀ >>= fun v => runCalls o l ⟨s, v⟩ >>= fun p => p.value.read s.ty >>= fun x => .ok (some x)
      else .ok none) := by
  refine then_iff' fun _ y => ?_
  cases b with
  | false => exact .rfl
  | true =>
    simp only [if_true]
    refine then_iff' fun v y => ?_
    rw [callsMay_eq]
    exact then_iff' (f := fun p : Pair E => p.value.read s.ty >>= fun x => .ok (some x)) fun p y => then_iff

theorem Joined.may_eq (J : Joined E Q Ent) (o : Oracle E Q Ent) (r : Req E Q Ent) :
    J.May A (fun r x => x = o r) r = fun x => x = J.ideal A o r := by
  cases r with
  | stat e q s => exact funext fun x => propext (mayBody_iff o _ _ _ s x)
  | relation a b q s => exact funext fun x => propext (mayBody_iff o _ _ _ s x)
  | attr e a => exact anyMay_eq o _

theorem mixed_fixed {J : Joined E Q Ent} {n : Nat} {r : Req E Q Ent} {x : Res r.Resp} :
    Mixed A (· = J) n r x ↔ x = J.answer A n r := by
  induction n generalizing r with
  | zero => exact .rfl
  | succ n ih =>
    have : Mixed A (· = J) n = fun r d => d = J.answer A n r := by
      funext r d; exact propext ih
    rw [J.answer_succ]
    have h2 := congrFun (J.may_eq (A := A) (J.answer A n) r) x
    constructor
    · rintro ⟨_, rfl, h⟩
      rw [this, h2] at h
      exact h
    · intro h
      exact ⟨J, rfl, by rw [this, h2]; exact h⟩

/-- **C124** With one querier, and so one behaviour, there is one code for each request, that of the model used for all
other properties, and one outcome without a cache. -/
theorem C124_fixed (J : Joined E Q Ent) (n : Nat) (r : Req E Q Ent) :
    (∀ c, MayRun A (· = J) n r c ↔ c = J.handle A n r) ∧ ∀ x, Mixed A (· = J) n r x ↔ x = J.answer A n r :=
  ⟨fun _ => mayRun_fixed, fun _ => mixed_fixed⟩

/-! ### more queriers, more code -/

theorem Prog.Becomes.mono {H H' : Codes E Q Ent} (hH : ∀ r c, H r c → H' r c) {p : Prog E Q Ent α}
    {c : CProg E Q Ent α} (h : p.Becomes H c) : p.Becomes H' c := by
  induction p generalizing c with
  | ret a => exact h
  | fail e => exact h
  | ask r k ih => obtain ⟨d, g, hd, hg, rfl⟩ := h; exact ⟨d, g, hH r d hd, fun x => ih x (hg x), rfl⟩
  | attempt r k ih => obtain ⟨d, g, hd, hg, rfl⟩ := h; exact ⟨d, g, hH r d hd, fun x => ih x (hg x), rfl⟩
  | clear k ih => obtain ⟨d, hd, rfl⟩ := h; exact ⟨d, ih hd, rfl⟩
  | store e q p k ih => obtain ⟨d, hd, rfl⟩ := h; exact ⟨d, ih hd, rfl⟩

theorem CallsBecome.mono {H H' : Codes E Q Ent} (hH : ∀ r c, H r c → H' r c) {l : List (Call E Q Ent)} {p : Pair E}
    {c : CProg E Q Ent (Pair E)} (h : CallsBecome H l p c) : CallsBecome H' l p c := by
  induction l generalizing p c with
  | nil => exact h
  | cons f l ih => obtain ⟨d, g, hd, hg, rfl⟩ := h; exact ⟨d, g, hd.mono hH, fun x => ih (hg x), rfl⟩

theorem AnyBecomes.mono {H H' : Codes E Q Ent} (hH : ∀ r c, H r c → H' r c) {l : List (Prog E Q Ent Bool)}
    {c : CProg E Q Ent Bool} (h : AnyBecomes H l c) : AnyBecomes H' l c := by
  induction l generalizing c with
  | nil => exact h
  | cons f l ih => obtain ⟨d, g, hd, hg, rfl⟩ := h; exact ⟨d, g, hd.mono hH, ih hg, rfl⟩

theorem Joined.Becomes.mono {J : Joined E Q Ent} {H H' : Codes E Q Ent} (hH : ∀ r c, H r c → H' r c)
    {r : Req E Q Ent} {c : CProg E Q Ent r.Resp} (h : J.Becomes A H r c) : J.Becomes A H' r c := by
  cases r with
  | stat e q s => obtain ⟨g, hg, rfl⟩ := h; exact ⟨g, fun v => (hg v).mono hH, rfl⟩
  | relation a b q s => obtain ⟨g, hg, rfl⟩ := h; exact ⟨g, fun v => (hg v).mono hH, rfl⟩
  | attr e a => exact AnyBecomes.mono hH h

theorem MayRun.mono (hF : ∀ J, F J → F' J) {n : Nat} {r : Req E Q Ent} {c : CProg E Q Ent r.Resp}
    (h : MayRun A F n r c) : MayRun A F' n r c := by
  induction n generalizing r with
  | zero => exact h
  | succ n ih => obtain ⟨J, hJ, h⟩ := h; exact ⟨J, hF J hJ, h.mono fun _ _ h => ih h⟩

/-- **C124** Among the code that a request may come to is that of each querier of the set. -/
theorem C124_includes (J : Joined E Q Ent) (hJ : F J) (n : Nat) (r : Req E Q Ent) :
    MayRun A F n r (J.handle A n r) :=
  (mayRun_fixed.2 rfl : MayRun A (· = J) n r (J.handle A n r)).mono (by rintro _ rfl; exact hJ)

/-! ### without a cache -/

theorem Then.of_cold {M : Res α → Prop} {K : α → Res β → Prop} {x : Res α} {f : α → Res β} (hx : M x)
    (hf : ∀ a, K a (f a)) : Then M K (x >>= f) := by
  cases x with
  | ok a => exact .inl ⟨a, hx, hf a⟩
  | error e => exact .inr ⟨e, hx, rfl⟩

/-- if each part of a set of outcomes is that of some code, so is their sequence -/
theorem Then.to_cold {M : Res α → Prop} {K : α → Res β → Prop} {C : CProg E Q Ent α → Prop}
    {D : α → CProg E Q Ent β → Prop} (hC : ∀ x, M x → ∃ c, C c ∧ c.cold = x)
    (hD : ∀ a x, K a x → ∃ c, D a c ∧ c.cold = x) (hT : ∀ a, ∃ c, D a c) {x : Res β} (h : Then M K x) :
    ∃ c g, C c ∧ (∀ a, D a (g a)) ∧ (c.bind g).cold = x := by
  classical
  choose g hg using hT
  rcases h with ⟨a, ha, hk⟩ | ⟨e, he, rfl⟩
  · obtain ⟨c, hc, hca⟩ := hC _ ha
    obtain ⟨d, hd, hdx⟩ := hD a x hk
    refine ⟨c, Function.update g a d, hc, fun b => ?_, ?_⟩
    · by_cases hb : b = a
      · subst hb; simpa using hd
      · rw [Function.update_of_ne hb]; exact hg b
    · rw [CProg.cold_bind, hca]
      simp [hdx]
  · obtain ⟨c, hc, hca⟩ := hC _ he
    exact ⟨c, g, hc, hg, by rw [CProg.cold_bind, hca]; rfl⟩

section cold
variable {H : Codes E Q Ent} {O : Outcomes E Q Ent}

theorem Prog.Becomes.cold (hH : ∀ r c, H r c → O r c.cold) {p : Prog E Q Ent α} {c : CProg E Q Ent α}
    (h : p.Becomes H c) : p.May O c.cold := by
  induction p generalizing c with
  | ret a => cases h; rfl
  | fail e => cases h; rfl
  | ask r k ih =>
    obtain ⟨d, g, hd, hg, rfl⟩ := h
    rw [CProg.cold_bind]
    exact Then.of_cold (hH r d hd) fun x => ih x (hg x)
  | attempt r k ih =>
    obtain ⟨d, g, hd, hg, rfl⟩ := h
    rw [CProg.cold_bind, CProg.attempt_cold]
    exact Then.of_cold ⟨_, hH r d hd, rfl⟩ fun x => ih x (hg x)
  | clear k ih => obtain ⟨d, hd, rfl⟩ := h; have := ih hd; exact this
  | store e q p k ih =>
    obtain ⟨d, hd, rfl⟩ := h
    unfold CProg.cachePair
    rw [CProg.cold_bind, CProg.cold_lift]
    have := ih hd
    exact Then.of_cold rfl fun _ => this

theorem CallsBecome.cold (hH : ∀ r c, H r c → O r c.cold) {l : List (Call E Q Ent)} {p : Pair E}
    {c : CProg E Q Ent (Pair E)} (h : CallsBecome H l p c) : CallsMay O l p c.cold := by
  induction l generalizing p c with
  | nil => cases h; rfl
  | cons f l ih =>
    obtain ⟨d, g, hd, hg, rfl⟩ := h
    rw [CProg.cold_bind]
    exact Then.of_cold (hd.cold hH) fun x => ih (hg x)

theorem AnyBecomes.cold (hH : ∀ r c, H r c → O r c.cold) {l : List (Prog E Q Ent Bool)}
    {c : CProg E Q Ent Bool} (h : AnyBecomes H l c) : AnyMay O l c.cold := by
  induction l generalizing c with
  | nil => cases h; rfl
  | cons f l ih =>
    obtain ⟨d, g, hd, hg, rfl⟩ := h
    rw [CProg.cold_bind]
    refine Then.of_cold (hd.cold hH) fun b => ?_
    cases b with
    | true => rfl
    | false => exact ih hg

theorem Prog.Becomes.total (hT : ∀ r, ∃ c, H r c) (p : Prog E Q Ent α) : ∃ c, p.Becomes H c := by
  induction p with
  | ret a => exact ⟨_, rfl⟩
  | fail e => exact ⟨_, rfl⟩
  | ask r k ih => obtain ⟨d, hd⟩ := hT r; choose g hg using ih; exact ⟨_, d, g, hd, hg, rfl⟩
  | attempt r k ih => obtain ⟨d, hd⟩ := hT r; choose g hg using ih; exact ⟨_, d, g, hd, hg, rfl⟩
  | clear k ih => obtain ⟨d, hd⟩ := ih; exact ⟨_, d, hd, rfl⟩
  | store e q p k ih => obtain ⟨d, hd⟩ := ih; exact ⟨_, d, hd, rfl⟩

theorem CallsBecome.total (hT : ∀ r, ∃ c, H r c) (l : List (Call E Q Ent)) (p : Pair E) : ∃ c, CallsBecome H l p c := by
  induction l generalizing p with
  | nil => exact ⟨_, rfl⟩
  | cons f l ih =>
    obtain ⟨d, hd⟩ := Prog.Becomes.total hT (f p)
    choose g hg using ih
    exact ⟨_, d, g, hd, hg, rfl⟩

theorem AnyBecomes.total (hT : ∀ r, ∃ c, H r c) (l : List (Prog E Q Ent Bool)) : ∃ c, AnyBecomes H l c := by
  induction l with
  | nil => exact ⟨_, rfl⟩
  | cons f l ih =>
    obtain ⟨d, hd⟩ := Prog.Becomes.total hT f
    obtain ⟨g, hg⟩ := ih
    exact ⟨_, d, g, hd, hg, rfl⟩

variable (hT : ∀ r, ∃ c, H r c) (hO : ∀ r x, O r x → ∃ c, H r c ∧ c.cold = x)
include hT hO

theorem Prog.May.code {p : Prog E Q Ent α} {x : Res α} (h : p.May O x) : ∃ c, p.Becomes H c ∧ c.cold = x := by
  induction p generalizing x with
  | ret a => cases h; exact ⟨_, rfl, rfl⟩
  | fail e => cases h; exact ⟨_, rfl, rfl⟩
  | ask r k ih =>
    obtain ⟨c, g, hc, hg, hx⟩ := Then.to_cold (hO r) (fun a x hx => ih a hx) (fun a => Prog.Becomes.total hT (k a)) h
    exact ⟨_, ⟨c, g, hc, hg, rfl⟩, hx⟩
  | attempt r k ih =>
    obtain ⟨_, g, ⟨c, hc, rfl⟩, hg, hx⟩ := Then.to_cold (C := fun d => ∃ c, H r c ∧ d = c.attempt) (by
        rintro _ ⟨y, hy, rfl⟩
        obtain ⟨c, hc, rfl⟩ := hO r y hy
        exact ⟨_, ⟨c, hc, rfl⟩, c.attempt_cold⟩)
      (fun a x hx => ih a hx) (fun a => Prog.Becomes.total hT (k a)) h
    exact ⟨_, ⟨c, g, hc, hg, rfl⟩, hx⟩
  | clear k ih => obtain ⟨c, hc, hx⟩ := ih h; exact ⟨_, ⟨c, hc, rfl⟩, hx⟩
  | store e q p k ih =>
    rcases h with ⟨b, hb, h⟩ | ⟨e, he, rfl⟩
    · obtain ⟨c, hc, rfl⟩ := ih h
      refine ⟨_, ⟨c, hc, rfl⟩, ?_⟩
      rw [CProg.cachePair, ← hb]; rfl
    · obtain ⟨c, hc⟩ := Prog.Becomes.total hT k
      refine ⟨_, ⟨c, hc, rfl⟩, ?_⟩
      rw [CProg.cachePair, ← he]; rfl

theorem CallsMay.code {l : List (Call E Q Ent)} {p : Pair E} {x : Res (Pair E)} (h : CallsMay O l p x) :
    ∃ c, CallsBecome H l p c ∧ c.cold = x := by
  induction l generalizing p x with
  | nil => cases h; exact ⟨_, rfl, rfl⟩
  | cons f l ih =>
    obtain ⟨c, g, hc, hg, hx⟩ := Then.to_cold (fun x hx => Prog.May.code hT hO hx) (fun a x hx => ih hx)
      (fun a => CallsBecome.total hT l a) h
    exact ⟨_, ⟨c, g, hc, hg, rfl⟩, hx⟩

theorem AnyMay.code {l : List (Prog E Q Ent Bool)} {x : Res Bool} (h : AnyMay O l x) :
    ∃ c, AnyBecomes H l c ∧ c.cold = x := by
  induction l generalizing x with
  | nil => cases h; exact ⟨_, rfl, rfl⟩
  | cons f l ih =>
    obtain ⟨g, hg⟩ := AnyBecomes.total hT l
    rcases h with ⟨b, hb, h⟩ | ⟨e, he, rfl⟩
    · obtain ⟨c, hc, hcx⟩ := Prog.May.code hT hO hb
      cases b with
      | true => cases h; exact ⟨_, ⟨c, g, hc, hg, rfl⟩, by rw [CProg.cold_bind, hcx]; rfl⟩
      | false =>
        obtain ⟨g', hg', rfl⟩ := ih h
        exact ⟨_, ⟨c, g', hc, hg', rfl⟩, by rw [CProg.cold_bind, hcx]; rfl⟩
    · obtain ⟨c, hc, hcx⟩ := Prog.May.code hT hO he
      exact ⟨_, ⟨c, g, hc, hg, rfl⟩, by rw [CProg.cold_bind, hcx]; rfl⟩

end cold

/-- what `Joined.May` says of stat and relation queries -/
def MayBody (O : Outcomes E Q Ent) (l : List (Call E Q Ent)) (b : Bool) (v₀ : Res (Buf E)) (s : StatInst E) :
    Res (Option s.Val) → Prop :=
  Then (· = validate (E.layout s.ty)) (fun _ => if b then
      Then (· = v₀) (fun v => Then (CallsMay O l ⟨s, v⟩) fun p =>
        Then (· = p.value.read s.ty) fun x => (· = .ok (some x)))
    else (· = .ok none))

theorem MayBody.of_cold {O : Outcomes E Q Ent} {l : List (Call E Q Ent)} {b : Bool} {v₀ : Res (Buf E)} {s : StatInst E}
    {g : Buf E → Res (Pair E)} (hg : ∀ v, CallsMay O l ⟨s, v⟩ (g v)) :
    MayBody O l b v₀ s (validate (E.layout s.ty) >>= fun _ =>
      if b then v₀ >>= fun v => g v >>= fun p => p.value.read s.ty >>= fun x => .ok (some x) else .ok none) := by
  refine Then.of_cold rfl fun _ => ?_
  cases b with
  | false => rfl
  | true =>
    simp only [if_true]
    exact Then.of_cold rfl fun v => Then.of_cold (hg v) fun p => then_iff.2 rfl

theorem Joined.statCode_cold {J : Joined E Q Ent} (hJ : J.world.cached = false) (e : Ent) (q : QualifierQuery Q)
    (s : StatInst E) (g : Buf E → CProg E Q Ent (Pair E)) :
    (J.statCode A e q s g).cold = (validate (E.layout s.ty) >>= fun _ =>
      if J.world.isStat e then J.world.startValue A s >>= fun v => (g v).cold >>= fun p =>
        p.value.read s.ty >>= fun x => .ok (some x) else .ok none) := by
  unfold Joined.statCode Joined.lookup Joined.remember
  rw [CProg.cold_bind, CProg.cold_lift]
  refine congrArg _ (funext fun _ => ?_)
  rw [CProg.cold_bind]
  cases J.world.isStat e with
  | false => rfl
  | true =>
    simp only [hJ, Bool.false_eq_true, if_false, if_true, CProg.bind_ret, CProg.cold_bind, CProg.cold_lift]
    cases J.world.startValue A s with
    | error e => rfl
    | ok v => cases hg : (g v).cold with
      | error e => simp [hg]
      | ok p => simp [hg]; rfl

theorem Joined.relationCode_cold {J : Joined E Q Ent} (a b : Ent) (s : StatInst E)
    (g : Buf E → CProg E Q Ent (Pair E)) :
    (J.relationCode A a b s g).cold = (validate (E.layout s.ty) >>= fun _ =>
      if J.world.isStat a && J.world.isStat b then J.world.startValue A s >>= fun v => (g v).cold >>= fun p =>
        p.value.read s.ty >>= fun x => .ok (some x) else .ok none) := by
  unfold Joined.relationCode
  rw [CProg.cold_bind, CProg.cold_lift]
  refine congrArg _ (funext fun _ => ?_)
  rw [CProg.cold_bind]
  cases J.world.isStat a && J.world.isStat b with
  | false => rfl
  | true =>
    simp only [if_true, CProg.cold_bind, CProg.cold_lift]
    cases J.world.startValue A s with
    | error e => rfl
    | ok v => cases hg : (g v).cold with
      | error e => simp [hg]
      | ok p => simp [hg]; rfl

/-- **C124** The outcomes that are possible without a cache are those of the code that requests may come to, if no
querier has one. -/
theorem C124_uncached (hc : ∀ J, F J → J.world.cached = false) (hF : ∃ J, F J) (n : Nat) (r : Req E Q Ent)
    (x : Res r.Resp) : Mixed A F n r x ↔ ∃ c, MayRun A F n r c ∧ c.cold = x := by
  obtain ⟨J₀, hJ₀⟩ := hF
  induction n generalizing r with
  | zero => exact ⟨fun h => ⟨_, rfl, h.symm⟩, by rintro ⟨_, rfl, rfl⟩; rfl⟩
  | succ n ih =>
    have hT : ∀ r, ∃ c, MayRun A F n r c := fun r => ⟨_, C124_includes J₀ hJ₀ n r⟩
    have hO : ∀ r x, Mixed A F n r x → ∃ c, MayRun A F n r c ∧ c.cold = x := fun r x => (ih r x).1
    have hH : ∀ r c, MayRun A F n r c → Mixed A F n r c.cold := fun r c h => (ih r _).2 ⟨c, h, rfl⟩
    constructor
    · rintro ⟨J, hJ, h⟩
      have hg : ∀ (s : StatInst E) (l : List (Call E Q Ent)) (v : Buf E) (y : Res (Pair E)),
          CallsMay (Mixed A F n) l ⟨s, v⟩ y →
          ∃ g : Buf E → CProg E Q Ent (Pair E), (∀ v, CallsBecome (MayRun A F n) l ⟨s, v⟩ (g v)) ∧ (g v).cold = y := by
        classical
        intro s l v y hy
        obtain ⟨c, hc, hcy⟩ := CallsMay.code hT hO hy
        choose g hg using fun v => CallsBecome.total hT l (⟨s, v⟩ : Pair E)
        refine ⟨Function.update g v c, fun w => ?_, by simpa using hcy⟩
        by_cases hw : w = v
        · subst hw; simpa using hc
        · rw [Function.update_of_ne hw]; exact hg w
      have hcalls : ∀ (s : StatInst E) (l : List (Call E Q Ent)) (y : Res (Option s.Val)),
          Then (· = J.world.startValue A s) (fun v => Then (CallsMay (Mixed A F n) l ⟨s, v⟩) fun p =>
            Then (· = p.value.read s.ty) fun x => (· = .ok (some x))) y →
          ∃ g : Buf E → CProg E Q Ent (Pair E), (∀ v, CallsBecome (MayRun A F n) l ⟨s, v⟩ (g v)) ∧
            (J.world.startValue A s >>= fun v => (g v).cold >>= fun p => p.value.read s.ty >>= fun x => .ok (some x)) = y := by
        intro s l y hy
        rcases hy with ⟨v, hv, hy⟩ | ⟨e, he, rfl⟩
        · rw [← hv]
          rcases hy with ⟨p, hp, hy⟩ | ⟨e, he, rfl⟩
          · obtain ⟨g, h1, h2⟩ := hg s l v _ hp
            refine ⟨g, h1, ?_⟩
            rw [Res.bind_ok, h2]
            exact (then_iff.1 hy).symm
          · obtain ⟨g, h1, h2⟩ := hg s l v _ he
            refine ⟨g, h1, ?_⟩
            rw [Res.bind_ok, h2]
            rfl
        · choose g hg using fun v => CallsBecome.total hT l (⟨s, v⟩ : Pair E)
          exact ⟨g, hg, by rw [← he]; rfl⟩
      have hany : ∀ (s : StatInst E) (l : List (Call E Q Ent)),
          ∃ g : Buf E → CProg E Q Ent (Pair E), ∀ v, CallsBecome (MayRun A F n) l ⟨s, v⟩ (g v) := by
        intro s l
        choose g hg using fun v => CallsBecome.total hT l (⟨s, v⟩ : Pair E)
        exact ⟨g, hg⟩
      cases r with
      | stat e q s =>
        rcases h with ⟨u, hu, h⟩ | ⟨y, hy, rfl⟩
        · cases he : J.world.isStat e with
          | false =>
            simp only [he] at h
            obtain ⟨g, hg⟩ := hany s (J.statCalls e q)
            refine ⟨_, ⟨J, hJ, g, hg, rfl⟩, ?_⟩
            refine (J.statCode_cold (hc J hJ) e q s g).trans ?_
            rw [← hu, he]
            exact h.symm
          | true =>
            simp only [he, if_true] at h
            obtain ⟨g, hg, hx⟩ := hcalls s _ x h
            refine ⟨_, ⟨J, hJ, g, hg, rfl⟩, ?_⟩
            refine (J.statCode_cold (hc J hJ) e q s g).trans ?_
            rw [← hu, he]
            exact hx
        · obtain ⟨g, hg⟩ := hany s (J.statCalls e q)
          refine ⟨_, ⟨J, hJ, g, hg, rfl⟩, ?_⟩
          refine (J.statCode_cold (hc J hJ) e q s g).trans ?_
          rw [← hy]
          rfl
      | relation a b q s =>
        rcases h with ⟨u, hu, h⟩ | ⟨y, hy, rfl⟩
        · cases he : J.world.isStat a && J.world.isStat b with
          | false =>
            simp only [he] at h
            obtain ⟨g, hg⟩ := hany s (J.relationCalls a b q)
            refine ⟨_, ⟨J, hJ, g, hg, rfl⟩, ?_⟩
            refine (J.relationCode_cold a b s g).trans ?_
            rw [← hu, he]
            exact h.symm
          | true =>
            simp only [he, if_true] at h
            obtain ⟨g, hg, hx⟩ := hcalls s _ x h
            refine ⟨_, ⟨J, hJ, g, hg, rfl⟩, ?_⟩
            refine (J.relationCode_cold a b s g).trans ?_
            rw [← hu, he]
            exact hx
        · obtain ⟨g, hg⟩ := hany s (J.relationCalls a b q)
          refine ⟨_, ⟨J, hJ, g, hg, rfl⟩, ?_⟩
          refine (J.relationCode_cold a b s g).trans ?_
          rw [← hy]
          rfl
      | attr e a =>
        obtain ⟨c, hc, hx⟩ := AnyMay.code hT hO h
        exact ⟨c, ⟨J, hJ, hc⟩, hx⟩
    · rintro ⟨c, ⟨J, hJ, h⟩, rfl⟩
      refine ⟨J, hJ, ?_⟩
      cases r with
      | stat e q s =>
        obtain ⟨g, hg, rfl⟩ := h
        exact (J.statCode_cold (hc J hJ) e q s g).symm ▸ MayBody.of_cold fun v => (hg v).cold hH
      | relation a b q s =>
        obtain ⟨g, hg, rfl⟩ := h
        exact (J.relationCode_cold a b s g).symm ▸ MayBody.of_cold fun v => (hg v).cold hH
      | attr e a => exact AnyBecomes.cold hH h

/-! ### types of cached values -/

theorem Prog.Becomes.putsTyped {H : Codes E Q Ent}
    (hh : ∀ r c, H r c → CProg.Good (fun _ _ => True) TypedEntry (fun _ => True) c) {p : Prog E Q Ent α}
    {c : CProg E Q Ent α} (h : p.Becomes H c) : CProg.Good (fun _ _ => True) TypedEntry (fun _ => True) c := by
  induction p generalizing c with
  | ret a => cases h; trivial
  | fail e => cases h; trivial
  | ask r k ih => obtain ⟨d, g, hd, hg, rfl⟩ := h; exact (hh r d hd).bind (fun x _ => ih x (hg x)) (fun _ _ => trivial)
  | attempt r k ih =>
    obtain ⟨d, g, hd, hg, rfl⟩ := h
    exact ((hh r d hd).attempt (R := fun _ => True) fun _ _ => trivial).bind (fun x _ => ih x (hg x)) (fun _ _ => trivial)
  | clear k ih => obtain ⟨d, hd, rfl⟩ := h; have := ih hd; exact this
  | store e q p k ih => obtain ⟨d, hd, rfl⟩ := h; exact CProg.cachePair_putsTyped e q p (ih hd)

theorem CallsBecome.putsTyped {H : Codes E Q Ent}
    (hh : ∀ r c, H r c → CProg.Good (fun _ _ => True) TypedEntry (fun _ => True) c) {l : List (Call E Q Ent)} {p : Pair E}
    {c : CProg E Q Ent (Pair E)} (h : CallsBecome H l p c) :
    CProg.Good (fun _ _ => True) TypedEntry (fun _ => True) c := by
  induction l generalizing p c with
  | nil => cases h; trivial
  | cons f l ih => obtain ⟨d, g, hd, hg, rfl⟩ := h; exact (hd.putsTyped hh).bind (fun x _ => ih (hg x)) (fun _ _ => trivial)

theorem AnyBecomes.putsTyped {H : Codes E Q Ent}
    (hh : ∀ r c, H r c → CProg.Good (fun _ _ => True) TypedEntry (fun _ => True) c) {l : List (Prog E Q Ent Bool)}
    {c : CProg E Q Ent Bool} (h : AnyBecomes H l c) :
    CProg.Good (fun _ _ => True) TypedEntry (fun _ => True) c := by
  induction l generalizing c with
  | nil => cases h; trivial
  | cons f l ih =>
    obtain ⟨d, g, hd, hg, rfl⟩ := h
    refine (hd.putsTyped hh).bind (fun b _ => ?_) (fun _ _ => trivial)
    cases b with
    | true => trivial
    | false => exact ih hg

theorem MayRun.putsTyped (n : Nat) (r : Req E Q Ent) (c : CProg E Q Ent r.Resp) (h : MayRun A F n r c) :
    CProg.Good (fun _ _ => True) TypedEntry (fun _ => True) c := by
  induction n generalizing r c with
  | zero => cases h; trivial
  | succ n ih =>
    obtain ⟨J, -, h⟩ := h
    cases r with
    | stat e q s =>
      obtain ⟨g, hg, rfl⟩ := h
      unfold Joined.statCode
      refine (CProg.Good.lift (P := fun _ => True) trivial).bind (fun _ _ => ?_) (fun _ _ => trivial)
      refine CProg.Good.bind (P := fun _ => True) ?_ (fun _ _ => CProg.Good.lift trivial) (fun _ _ => trivial)
      cases J.world.isStat e with
      | false => trivial
      | true =>
        simp only [if_true]
        refine CProg.Good.bind (P := fun _ => True) ?_ (fun o _ => ?_) (fun _ _ => trivial)
        · unfold Joined.lookup
          cases J.world.cached with
          | false => trivial
          | true => exact fun o _ => CProg.Good.lift trivial
        · cases o with
          | some b => trivial
          | none =>
            refine CProg.Good.bind (P := fun _ => True) ?_ (fun p _ => ?_) (fun _ _ => trivial)
            · exact (CProg.Good.lift (P := fun _ => True) trivial).bind (fun v _ => (hg v).putsTyped ih)
                (fun _ _ => trivial)
            · refine CProg.Good.bind (P := fun _ => True) ?_ (fun _ _ => trivial) (fun _ _ => trivial)
              unfold Joined.remember
              cases J.world.cached with
              | false => trivial
              | true => exact CProg.cachePair_putsTyped e q p trivial
    | relation a b q s =>
      obtain ⟨g, hg, rfl⟩ := h
      unfold Joined.relationCode
      refine (CProg.Good.lift (P := fun _ => True) trivial).bind (fun _ _ => ?_) (fun _ _ => trivial)
      refine CProg.Good.bind (P := fun _ => True) ?_ (fun _ _ => CProg.Good.lift trivial) (fun _ _ => trivial)
      cases J.world.isStat a && J.world.isStat b with
      | false => trivial
      | true =>
        refine (CProg.Good.lift (P := fun _ => True) trivial).bind (fun v _ => ?_) (fun _ _ => trivial)
        exact ((hg v).putsTyped ih).bind (fun p _ => trivial) (fun _ _ => trivial)
    | attr e a => exact AnyBecomes.putsTyped ih h

/-! ### with a cache -/

section runs
variable [DecidableEq Q] [DecidableEq Ent]

theorem FReachable.good {G : CacheKey E Q Ent → Option (Buf E) → Prop} {P : CacheKey E Q Ent → Buf E → Prop}
    {R : (n : Nat) → (r : Req E Q Ent) → Res r.Resp → Prop} (Inv : Cache E Q Ent → Prop)
    (hcode : ∀ n r c, MayRun A F n r c → CProg.Good G P (R n r) c)
    (hget : ∀ c, Inv c → ∀ k, G k (HMap.get (CacheKey.eq A) c k))
    (hput : ∀ c k b, Inv c → P k b → Inv (HMap.insert (CacheKey.eq A) c k b).1)
    (hclear : ∀ c, Inv c → c.clear = .ok []) (hnil : Inv []) {s : Conf E Q Ent} (h : FReachable A F s) :
    Inv s.cache ∧ ∀ t ∈ s.threads, CProg.Good G P (R t.depth t.req) t.code := by
  induction h with
  | init => exact ⟨hnil, fun t ht => (by cases ht)⟩
  | step _ hstep ih =>
    obtain ⟨hc, ht⟩ := ih
    cases hstep with
    | start c ts n r code hcd =>
      refine ⟨hc, fun t h => ?_⟩
      rcases List.mem_append.1 h with h | h
      · exact ht t h
      · cases List.mem_singleton.1 h
        exact hcode n r code hcd
    | get c ts i n r k f hi =>
      refine ⟨hc, fun t h => ?_⟩
      rcases List.mem_or_eq_of_mem_set h with h | rfl
      · exact ht t h
      · exact ht _ (List.mem_of_getElem? hi) _ (hget c hc k)
    | put c ts i n r k b f hi =>
      have hp := ht _ (List.mem_of_getElem? hi)
      refine ⟨hput _ _ _ hc hp.1, fun t h => ?_⟩
      rcases List.mem_or_eq_of_mem_set h with h | rfl
      · exact ht t h
      · exact hp.2
    | clear c c' ts h =>
      rw [hclear c hc] at h
      cases h
      exact ⟨hnil, ht⟩
    | wipe c c' ts i n r f hi h =>
      rw [hclear c hc] at h
      cases h
      refine ⟨hnil, fun t h => ?_⟩
      rcases List.mem_or_eq_of_mem_set h with h | rfl
      · exact ht t h
      · exact (show CProg.Good G P (R n r) (.clear f) from ht _ (List.mem_of_getElem? hi))
    | wipeFail c e ts i n r f hi h =>
      rw [hclear c hc] at h
      cases h

/-- all cached values are ones that their queries may come to -/
def CacheMixed (A : Addr E) (F : Joined E Q Ent → Prop) (c : Cache E Q Ent) : Prop := ∀ x ∈ c, MixedEntry A F x.1 x.2

omit [DecidableEq Q] [DecidableEq Ent] in
theorem CacheMixed.typed {c : Cache E Q Ent} (h : CacheMixed A F c) : CacheTyped c := fun x hx =>
  let ⟨v, h1, h2, _⟩ := h x hx
  ⟨v, h1, h2⟩

theorem CacheMixed.insert {c : Cache E Q Ent} (h : CacheMixed A F c) {k : CacheKey E Q Ent} {b : Buf E}
    (hb : MixedEntry A F k b) : CacheMixed A F (HMap.insert (CacheKey.eq A) c k b).1 := by
  intro x hx
  rcases HMap.mem_insert (CacheKey.eq_iff A) hx with h' | rfl
  · exact h x h'
  · exact hb

theorem CacheMixed.get {c : Cache E Q Ent} (h : CacheMixed A F c) (k : CacheKey E Q Ent) :
    MixedGet A F k (HMap.get (CacheKey.eq A) c k) :=
  fun _ hb => h _ (HMap.mem_of_get (CacheKey.eq_iff A) hb)

/-- **C124** Let the streams behave differently from call to call, but be well-behaved each time and store nothing in
the cache themselves.  However many threads query, and clear, each result is one that the query may come to without a
cache; in particular nothing ends in undefined behaviour.  So are the values in the cache. -/
theorem C124_possible (hs : ∀ J, F J → J.Safe A) (hn : ∀ J, F J → J.NoStore) (s : Conf E Q Ent)
    (h : FReachable A F s) :
    (∀ t ∈ s.threads, ∀ x : Res t.req.Resp, t.code = CProg.lift x → x ≠ .error .fuel →
      x ≠ .error .ub ∧ ∃ m, Mixed A F m t.req x) ∧
    ∀ k b, (k, b) ∈ s.cache → ∃ v : k.stat.Val, b = .val k.stat.ty v ∧
      ∃ m, Mixed A F m (.stat k.entity k.query k.stat) (.ok (some v)) := by
  obtain ⟨h1, h2⟩ := h.good (R := fun _ r => Ev fun m => Mixed A F m r) (CacheMixed A F)
    (fun n r c => MayRun.good hs hn n r c) (fun _ h k => h.get k) (fun _ _ _ h hb => h.insert hb)
    (fun _ h => h.typed.clear) (fun x hx => by cases hx)
  refine ⟨fun t ht x hx hne => ?_, fun k b hkb => ?_⟩
  · have h3 : ∃ m, Mixed A F m t.req x := by
      have := h2 t ht
      rw [hx] at this
      cases x with
      | ok a => exact this hne
      | error e => exact this hne
    exact ⟨h3.elim fun m hm => Mixed.safe hs m _ x hm, h3⟩
  · obtain ⟨v, hv, -, hm⟩ := h1 _ hkb
    exact ⟨v, hv, hm⟩

/-- **C124** Running one code of a request to completion, with nothing in between, is one of the interleavings. -/
theorem C124_sequential {s : Conf E Q Ent} (h : FReachable A F s) (n : Nat) (r : Req E Q Ent)
    (c : CProg E Q Ent r.Resp) (hc : MayRun A F n r c) :
    FReachable A F ⟨(c.run A s.cache).2, s.threads ++ [⟨n, r, CProg.lift (c.run A s.cache).1⟩]⟩ := by
  obtain ⟨cache, ts⟩ := s
  have h := h.step (.start cache ts n r c hc)
  clear hc
  change FReachable A F ⟨(c.run A cache).2, ts ++ [⟨n, r, CProg.lift (c.run A cache).1⟩]⟩
  have key : ∀ {γ : Type} (c : CProg E Q Ent γ) (hγ : γ = r.Resp) (cache : Cache E Q Ent),
      FReachable A F ⟨cache, ts ++ [⟨n, r, hγ ▸ c⟩]⟩ →
      FReachable A F ⟨(c.run A cache).2, ts ++ [⟨n, r, CProg.lift (hγ ▸ (c.run A cache).1)⟩]⟩ := by
    intro γ x hγ c h
    subst hγ
    change FReachable A F ⟨c, ts ++ [⟨n, r, x⟩]⟩ at h
    change FReachable A F ⟨(x.run A c).2, ts ++ [⟨n, r, CProg.lift (x.run A c).1⟩]⟩
    have hi : ∀ t : Thread E Q Ent, (ts ++ [t])[ts.length]? = some t := by intro t; simp
    have hset : ∀ t t' : Thread E Q Ent, (ts ++ [t]).set ts.length t' = ts ++ [t'] := by intro t t'; simp
    induction x generalizing c with
    | ret a => exact h
    | fail e => exact h
    | get k f ih =>
      refine ih _ (c := c) ?_
      have := h.step (FStep.get c _ ts.length n r k f (hi _))
      rwa [hset] at this
    | put k b f ih =>
      refine ih (c := (HMap.insert (CacheKey.eq A) c k b).1) ?_
      have := h.step (FStep.put c _ ts.length n r k b f (hi _))
      rwa [hset] at this
    | clear f ih =>
      rw [CProg.run_clear]
      cases hc : c.clear with
      | ok c' =>
        refine ih (c := c') ?_
        have := h.step (FStep.wipe c c' _ ts.length n r f (hi _) hc)
        rwa [hset] at this
      | error e =>
        have := h.step (FStep.wipeFail c e _ ts.length n r f (hi _) hc)
        rwa [hset] at this
  exact key c rfl cache h

theorem MayRun.run (hs : ∀ J, F J → J.Safe A) (hn : ∀ J, F J → J.NoStore) {c : Cache E Q Ent}
    (hc : CacheMixed A F c) {n : Nat} {r : Req E Q Ent} {code : CProg E Q Ent r.Resp} (h : MayRun A F n r code) :
    Ev (fun m => Mixed A F m r) (code.run A c).1 ∧ CacheMixed A F (code.run A c).2 :=
  (MayRun.good hs hn n r code h).run (CacheMixed A F) (fun _ h k => h.get k) (fun _ _ _ h hb => h.insert hb)
    (fun c h => by rw [h.typed.clear]; exact fun x hx => by cases hx) hc

/-- **C124** A world that changes while the cache is not cleared: after any history `before` and a clear, let the world
or the joined streams change any number of times.  Each query returns what it may come to without a cache if each
request, nested ones included, is served by some querier there was since the clear. -/
theorem C124_stale (J₀ : Joined E Q Ent) (before : List (Event E Q Ent)) (J : Joined E Q Ent)
    (evs : List (Event E Q Ent)) (hF : Serving F J evs) (hs : ∀ J, F J → J.Safe A) (hn : ∀ J, F J → J.NoStore) :
    ∃ c, (history A J₀ [] before).2.clear = .ok c ∧
      (history A J c evs).1.length = evs.countP Event.isQuery ∧
      ∀ o ∈ (history A J c evs).1, o.res ≠ .error .fuel →
        o.res ≠ .error .ub ∧ ∃ m, Mixed A F m o.req o.res := by
  refine ⟨[], (history_cacheTyped (A := A) before J₀ (fun x hx => by cases hx)).clear, ?_⟩
  have key : ∀ (evs : List (Event E Q Ent)) (J : Joined E Q Ent) (c : Cache E Q Ent), Serving F J evs →
      CacheMixed A F c → (history A J c evs).1.length = evs.countP Event.isQuery ∧
      ∀ o ∈ (history A J c evs).1, o.res ≠ .error .fuel → ∃ m, Mixed A F m o.req o.res := by
    intro evs
    induction evs with
    | nil => exact fun J c _ _ => ⟨rfl, fun o ho => by cases ho⟩
    | cons ev evs ih =>
      intro J c hF hc
      cases ev with
      | query n r =>
        have h1 := MayRun.run hs hn hc (C124_includes J hF.1 n r)
        have h2 := ih J _ ⟨hF.1, fun J' h => hF.2 J' (List.mem_cons_of_mem _ h)⟩ h1.2
        refine ⟨by simp [history, List.countP_cons, Event.isQuery, h2.1], fun o ho => ?_⟩
        simp only [history, List.mem_cons] at ho
        rcases ho with rfl | ho
        · exact h1.1
        · exact h2.2 o ho
      | clear =>
        have h2 := ih J [] ⟨hF.1, fun J' h => hF.2 J' (List.mem_cons_of_mem _ h)⟩ (fun x hx => by cases hx)
        simp only [history, hc.typed.clear]
        exact ⟨by simp [Event.isQuery, h2.1], h2.2⟩
      | change J' =>
        have h2 := ih J' c ⟨hF.2 J' List.mem_cons_self, fun J' h => hF.2 J' (List.mem_cons_of_mem _ h)⟩ hc
        simp only [history]
        exact ⟨by simp [Event.isQuery, h2.1], h2.2⟩
  have h := key evs J [] hF (fun x hx => by cases hx)
  exact ⟨h.1, fun o ho hne => ⟨(h.2 o ho hne).elim fun m hm => Mixed.safe hs m _ _ hm, h.2 o ho hne⟩⟩

omit [DecidableEq Q] [DecidableEq Ent] in
theorem Joined.May.mono {O O' : Outcomes E Q Ent} (hO : ∀ r x, O r x → O' r x) {J : Joined E Q Ent} {r : Req E Q Ent}
    {x : Res r.Resp} (h : J.May A O r x) : J.May A O' r x := by
  have hthen : ∀ {γ δ : Type} {M M' : Res γ → Prop} {K K' : γ → Res δ → Prop}, (∀ y, M y → M' y) →
      (∀ a y, K a y → K' a y) → ∀ y, Then M K y → Then M' K' y := by
    rintro γ δ M M' K K' hM hK y (⟨a, ha, hy⟩ | ⟨e, he, rfl⟩)
    · exact .inl ⟨a, hM _ ha, hK a y hy⟩
    · exact .inr ⟨e, hM _ he, rfl⟩
  have hprog : ∀ {γ : Type} (p : Prog E Q Ent γ) y, p.May O y → p.May O' y := by
    intro γ p
    induction p with
    | ret a => exact fun y h => h
    | fail e => exact fun y h => h
    | ask r k ih => exact hthen (hO r) ih
    | attempt r k ih => exact hthen (fun y ⟨x, hx, hy⟩ => ⟨x, hO r x hx, hy⟩) ih
    | clear k ih => exact ih
    | store e q p k ih => exact hthen (fun y h => h) fun _ => ih
  have hcalls : ∀ (l : List (Call E Q Ent)) p y, CallsMay O l p y → CallsMay O' l p y := by
    intro l
    induction l with
    | nil => exact fun p y h => h
    | cons c l ih => exact fun p => hthen (hprog (c p)) ih
  have hany : ∀ (l : List (Prog E Q Ent Bool)) y, AnyMay O l y → AnyMay O' l y := by
    intro l
    induction l with
    | nil => exact fun y h => h
    | cons c l ih =>
      refine hthen (hprog c) fun b => ?_
      cases b with
      | true => exact fun y h => h
      | false => exact ih
  have hbody : ∀ (l : List (Call E Q Ent)) (b : Bool) (v₀ : Res (Buf E)) (s : StatInst E) y,
      MayBody O l b v₀ s y → MayBody O' l b v₀ s y := by
    intro l b v₀ s
    refine hthen (fun y h => h) (fun _ => ?_)
    cases b with
    | false => exact fun y h => h
    | true =>
      simp only [if_true]
      exact hthen (fun y h => h) fun v => hthen (hcalls _ _) fun p y h => h
  cases r with
  | stat e q s => exact hbody _ _ _ _ x h
  | relation a b q s => exact hbody _ _ _ _ x h
  | attr e a => exact hany _ x h

/-- **C124** So what holds of all results of each querier there was, provided it holds of all answers to questions of
streams, holds of all results with the cache. -/
theorem C124_invariant (J : Joined E Q Ent) (evs : List (Event E Q Ent)) (hF : Serving F J evs)
    (hs : ∀ J, F J → J.Safe A) (hn : ∀ J, F J → J.NoStore) (R : Outcomes E Q Ent)
    (hfuel : ∀ r, R r (.error .fuel))
    (hR : ∀ J, F J → ∀ r x, J.May A R r x → R r x) :
    ∀ o ∈ (history A J [] evs).1, R o.req o.res := by
  have key : ∀ n r (x : Res r.Resp), Mixed A F n r x → R r x := by
    intro n
    induction n with
    | zero => rintro r x rfl; exact hfuel r
    | succ n ih => rintro r x ⟨J, hJ, h⟩; exact hR J hJ r x (Joined.May.mono ih h)
  obtain ⟨c, hc, -, h⟩ := C124_stale (A := A) J [] J evs hF hs hn
  cases hc
  intro o ho
  by_cases hne : o.res = .error .fuel
  · rw [hne]; exact hfuel _
  · obtain ⟨-, m, hm⟩ := h o ho hne
    exact key m _ _ hm

/-- **C124** Whatever the streams do, and however differently each time: the cached values have the types of their
stats, and clearing succeeds. -/
theorem C124_types (s : Conf E Q Ent) (h : FReachable A F s) :
    (∀ x ∈ s.cache, ∃ v : x.1.stat.Val, x.2 = .val x.1.stat.ty v ∧ Storable (E.layout x.1.stat.ty)) ∧
    s.cache.clear = .ok [] := by
  have h1 : CacheTyped s.cache := (h.good (R := fun _ _ _ => True) CacheTyped
    (fun n r c hc => MayRun.putsTyped n r c hc) (fun _ _ _ => trivial)
    (fun _ _ _ h hb => h.insert hb) (fun _ h => h.clear) (fun x hx => by cases hx)).1
  exact ⟨h1, h1.clear⟩

end runs

/-! ### examples -/

/-- adds `k`, and on entity 0 also what the query of the same stat of entity 1 returns -/
def demoShare (k : Int) : CStream demo (BitVec 8) Nat where
  Item := Nat
  query e := some e
  stream _ it q p :=
    if it = 0 then
      .ask (.stat 1 q (demoInt 0)) fun (o : Option StatInt) => match o with
        | some v => demoAdd (k + v.addend) p
        | none => demoAdd k p
    else demoAdd k p

/-- a world with that stream -/
def demoShared (k : Int) : Joined demo (BitVec 8) Nat :=
  ({ demoWorld with relations := none, children := fun _ => none }).withComponent (demoShare k)

theorem demoShared_safe (k : Int) : (demoShared k).Safe demoAddr where
  globals g hg e q := by cases hg
  streams st hst e it _ this q := by
    cases List.mem_singleton.1 hst
    intro p hp
    change Nat at it
    by_cases h : it = 0
    · subst h
      intro o
      cases o with
      | none => exact demoAdd_safe k p hp
      | some v => exact demoAdd_safe _ p hp
    · change Prog.All _ (if it = 0 then _ else _)
      rw [if_neg h]
      exact demoAdd_safe k p hp
  relations st hst a b q := by cases hst
  attrs st hst e it _ this a := by
    cases List.mem_singleton.1 hst
    intro h; cases h
  defaults d hd := by cases hd

theorem demoShared_noStore (k : Int) : (demoShared k).NoStore := by
  refine .of_streams (fun g hg => by cases hg) (fun st hst e it _ this q p => ?_) (fun st hst => by cases hst)
    (fun st hst e it _ this a => by cases List.mem_singleton.1 hst; trivial)
  cases List.mem_singleton.1 hst
  change Nat at it
  by_cases h : it = 0
  · subst h
    intro o
    cases o with
    | none => exact (Prog.Quiet.lift _).noStore
    | some v => exact (Prog.Quiet.lift _).noStore
  · change Prog.NoStore (if it = 0 then _ else _)
    rw [if_neg h]
    exact (Prog.Quiet.lift _).noStore

/-- **C124** Such results need not be those of one world: entity 1 is queried, the world changes, and the query of
entity 0, which asks for entity 1, returns 1 + 10: neither what it returns in the old world nor in the new one. -/
theorem C124_neither : ∃ J J' : Joined demo (BitVec 8) Nat, ∃ r r' : Req demo (BitVec 8) Nat, ∃ n,
    (J.Safe demoAddr ∧ J.NoStore) ∧ (J'.Safe demoAddr ∧ J'.NoStore) ∧
    (∀ o ∈ (history demoAddr J [] [.query n r, .change J', .query n r']).1.getLast?,
      (∃ x, o.res = .ok x) ∧ ∀ m, o.res ≠ J.answer demoAddr m o.req ∧ o.res ≠ J'.answer demoAddr m o.req) ∧
    (history demoAddr J [] [.query n r, .change J', .query n r']).1.length = 2 := by
  refine ⟨demoShared 1, demoShared 10, .stat 1 demoQ (demoInt 0), .stat 0 demoQ (demoInt 0), 2,
    ⟨demoShared_safe 1, demoShared_noStore 1⟩, ⟨demoShared_safe 10, demoShared_noStore 10⟩, ?_, rfl⟩
  intro o ho
  have ho' : o = ⟨demoShared 10, 2, .stat 0 demoQ (demoInt 0),
      (.ok (some ⟨11, -2147483648, 2147483647, 1⟩) : Res (Option StatInt))⟩ := (Option.some.inj ho).symm
  subst ho'
  refine ⟨⟨_, rfl⟩, fun m => ?_⟩
  have h0 : ∀ k m, (demoShared k).answer demoAddr m (.stat 0 demoQ (demoInt 0)) ≠ .error .fuel →
      (demoShared k).answer demoAddr 2 (.stat 0 demoQ (demoInt 0)) ≠ .error .fuel →
      (demoShared k).answer demoAddr m (.stat 0 demoQ (demoInt 0)) =
        (demoShared k).answer demoAddr 2 (.stat 0 demoQ (demoInt 0)) :=
    fun k m h1 h2 => (demoShared k).answer_unique demoAddr h1 h2
  have h1 : (demoShared 1).answer demoAddr 2 (.stat 0 demoQ (demoInt 0)) =
    (.ok (some ⟨2, -2147483648, 2147483647, 1⟩) : Res (Option StatInt)) := rfl
  have h2 : (demoShared 10).answer demoAddr 2 (.stat 0 demoQ (demoInt 0)) =
    (.ok (some ⟨20, -2147483648, 2147483647, 1⟩) : Res (Option StatInt)) := rfl
  constructor
  · intro h
    have h3 := h0 1 m (by intro h'; cases h.trans h') (by rw [h1]; intro h; cases h)
    cases (h.trans h3).trans h1
  · intro h
    have h3 := h0 10 m (by intro h'; cases h.trans h') (by rw [h2]; intro h; cases h)
    cases (h.trans h3).trans h2

/-- what holds of all results in both worlds: entities from 2 on have no stats -/
example : ∀ o ∈ (history demoAddr (demoShared 1) [] [.query 2 (.stat 1 demoQ (demoInt 0)), .change (demoShared 10),
    .query 2 (.stat 2 demoQ (demoInt 0))]).1, match o.req, o.res with
      | .stat e _ _, .ok x => 2 ≤ e → x = none
      | _, _ => True := by
  refine C124_invariant (F := fun J => ∃ k, J = demoShared k) (demoShared 1) _
    ⟨⟨1, rfl⟩, fun J' h => ⟨10, by simpa using h⟩⟩ (by rintro _ ⟨k, rfl⟩; exact demoShared_safe k)
    (by rintro _ ⟨k, rfl⟩; exact demoShared_noStore k)
    (fun r x => match r, x with
      | .stat e _ _, .ok x => 2 ≤ e → x = none
      | _, _ => True) (fun r => by cases r <;> trivial) ?_
  rintro _ ⟨k, rfl⟩ r x h
  cases r with
  | relation a b q s => trivial
  | attr e a => trivial
  | stat e q s =>
    cases x with
    | error y => trivial
    | ok x =>
      intro he
      rcases h with ⟨u, -, h⟩ | ⟨y, -, h⟩
      · have : (demoShared k).world.isStat e = false := by
          change (e == 0 || e == 1) = false
          rw [beq_false_of_ne (by omega), beq_false_of_ne (by omega)]; rfl
        simp only [this] at h
        exact Except.ok.inj h
      · cases h

/-- streams that differ from request to request: the first query is served by one querier, the second one by another,
and its question by a third -/
example : ∃ s, FReachable demoAddr (fun J => ∃ k, J = demoShared k) s ∧ s.threads.map (fun t => t.req) =
    [.stat 1 (.aggregate 1 : QualifierQuery (BitVec 8)) (demoInt 0), .stat 0 demoQ (demoInt 0)] := by
  refine ⟨_, C124_sequential (C124_sequential .init 1 (.stat 1 (.aggregate 1) (demoInt 0)) _
    (C124_includes (demoShared 1) ⟨1, rfl⟩ _ _)) 2 (.stat 0 demoQ (demoInt 0)) _
    ⟨demoShared 10, ⟨10, rfl⟩, Joined.Becomes.mono ?_ (Joined.becomes_iff (h := (demoShared 100).handle demoAddr 1).2 rfl)⟩,
    rfl⟩
  rintro r _ rfl
  exact C124_includes (demoShared 100) ⟨100, rfl⟩ 1 r

/-- that result is one of the mixed ones -/
example : ∃ m, Mixed demoAddr (fun J => ∃ k, J = demoShared k) m (.stat 0 demoQ (demoInt 0))
    (.ok (some ⟨11, -2147483648, 2147483647, 1⟩) : Res (Option StatInt)) := by
  obtain ⟨c, hc, -, h⟩ := C124_stale (A := demoAddr) (F := fun J => ∃ k, J = demoShared k) (demoShared 1) [] (demoShared 1)
    [.query 2 (.stat 1 demoQ (demoInt 0)), .change (demoShared 10), .query 2 (.stat 0 demoQ (demoInt 0))]
    ⟨⟨1, rfl⟩, fun J' h => ⟨10, by simpa using h⟩⟩ (by rintro _ ⟨k, rfl⟩; exact demoShared_safe k)
    (by rintro _ ⟨k, rfl⟩; exact demoShared_noStore k)
  cases hc
  exact (h ⟨demoShared 10, 2, .stat 0 demoQ (demoInt 0), .ok (some ⟨11, -2147483648, 2147483647, 1⟩ : Option StatInt)⟩
    (List.mem_cons_of_mem _ (List.mem_singleton.2 rfl)) (by intro h; cases h)).2

end BSQ
