import Verif.Model.Fickle
import Verif.Spec.Fickle
import Verif.Props.Cache
/-! # Queriers that do not do the same each time: lemmas -/
namespace BSQ
variable {E : Env} {Q Ent α β : Type} {A : Addr E}

/-! ### outcomes -/

/-- every outcome but running out of depth carries over -/
def Carries (M M' : Res α → Prop) : Prop := ∀ x, x ≠ .error .fuel → M x → M' x

theorem Then.carries {M M' : Res α → Prop} {K K' : α → Res β → Prop} (hM : Carries M M')
    (hK : ∀ a, Carries (K a) (K' a)) : Carries (Then M K) (Then M' K') := by
  rintro x hx (⟨a, ha, hk⟩ | ⟨e, he, rfl⟩)
  · exact .inl ⟨a, hM _ (by simp) ha, hK a x hx hk⟩
  · exact .inr ⟨e, hM _ (by simpa using hx) he, rfl⟩

theorem Carries.refl (M : Res α → Prop) : Carries M M := fun _ _ h => h

theorem Prog.May.carries {O O' : Outcomes E Q Ent} (hO : ∀ r, Carries (O r) (O' r)) (p : Prog E Q Ent α) :
    Carries (p.May O) (p.May O') := by
  induction p with
  | ret a => exact .refl _
  | fail e => exact .refl _
  | ask r k ih => exact Then.carries (hO r) ih
  | attempt r k ih =>
    refine Then.carries ?_ ih
    rintro _ hx ⟨y, hy, rfl⟩
    exact ⟨y, hO r y (fun h => hx (Res.attempt_fuel.2 h)) hy, rfl⟩
  | clear k ih => exact ih
  | store e q p k ih => exact Then.carries (.refl _) fun _ => ih

theorem CallsMay.carries {O O' : Outcomes E Q Ent} (hO : ∀ r, Carries (O r) (O' r)) (l : List (Call E Q Ent))
    (p : Pair E) : Carries (CallsMay O l p) (CallsMay O' l p) := by
  induction l generalizing p with
  | nil => exact .refl _
  | cons c l ih => exact Then.carries (Prog.May.carries hO (c p)) ih

theorem AnyMay.carries {O O' : Outcomes E Q Ent} (hO : ∀ r, Carries (O r) (O' r)) (l : List (Prog E Q Ent Bool)) :
    Carries (AnyMay O l) (AnyMay O' l) := by
  induction l with
  | nil => exact .refl _
  | cons c l ih =>
    refine Then.carries (Prog.May.carries hO c) fun b => ?_
    cases b with
    | true => exact .refl _
    | false => exact ih

theorem Joined.May.carries {J : Joined E Q Ent} {O O' : Outcomes E Q Ent} (hO : ∀ r, Carries (O r) (O' r))
    (r : Req E Q Ent) : Carries (J.May A O r) (J.May A O' r) := by
  cases r with
  | stat e q s =>
    simp only [Joined.May]
    refine Then.carries (.refl _) fun _ => ?_
    cases J.world.isStat e with
    | false => exact .refl _
    | true =>
      simp only [if_true]
      exact Then.carries (.refl _) fun v => Then.carries (CallsMay.carries hO _ _) fun _ => .refl _
  | relation a b q s =>
    simp only [Joined.May]
    refine Then.carries (.refl _) fun _ => ?_
    cases J.world.isStat a && J.world.isStat b with
    | false => exact .refl _
    | true =>
      simp only [if_true]
      exact Then.carries (.refl _) fun v => Then.carries (CallsMay.carries hO _ _) fun _ => .refl _
  | attr e a => exact AnyMay.carries hO _

variable {F : Joined E Q Ent → Prop}

theorem Mixed.succ (n : Nat) (r : Req E Q Ent) : Carries (Mixed A F n r) (Mixed A F (n + 1) r) := by
  induction n generalizing r with
  | zero => exact fun x hx h => absurd h hx
  | succ n ih => exact fun x hx ⟨J, hJ, h⟩ => ⟨J, hJ, Joined.May.carries ih r x hx h⟩

/-- outcomes at each depth, those of smaller depths being among those of larger ones -/
def OutGrows (M : Nat → Res α → Prop) : Prop := ∀ n m, n ≤ m → Carries (M n) (M m)

theorem Mixed.outGrows (r : Req E Q Ent) : OutGrows (fun n => Mixed A F n r) := by
  intro n m h
  induction h with
  | refl => exact .refl _
  | step _ ih => exact fun x hx h => Mixed.succ _ r x hx (ih x hx h)

theorem OutGrows.const (M : Res α → Prop) : OutGrows (fun _ => M) := fun _ _ _ => .refl _
theorem OutGrows.then {M : Nat → Res α → Prop} {K : Nat → α → Res β → Prop} (hM : OutGrows M)
    (hK : ∀ a, OutGrows (fun n => K n a)) : OutGrows (fun n => Then (M n) (K n)) :=
  fun n m h => Then.carries (hM n m h) fun a => hK a n m h
theorem OutGrows.may {O : Nat → Outcomes E Q Ent} (hO : ∀ r, OutGrows (fun n => O n r)) (p : Prog E Q Ent α) :
    OutGrows (fun n => p.May (O n)) := fun n m h => Prog.May.carries (fun r => hO r n m h) p
theorem OutGrows.calls {O : Nat → Outcomes E Q Ent} (hO : ∀ r, OutGrows (fun n => O n r)) (l : List (Call E Q Ent))
    (p : Pair E) : OutGrows (fun n => CallsMay (O n) l p) := fun n m h => CallsMay.carries (fun r => hO r n m h) l p
theorem OutGrows.any {O : Nat → Outcomes E Q Ent} (hO : ∀ r, OutGrows (fun n => O n r)) (l : List (Prog E Q Ent Bool)) :
    OutGrows (fun n => AnyMay (O n) l) := fun n m h => AnyMay.carries (fun r => hO r n m h) l

/-- an outcome at some depth -/
def Ev (M : Nat → Res α → Prop) (x : Res α) : Prop := x ≠ .error .fuel → ∃ m, M m x

/-! ### well-behaved code -/

theorem Prog.All.may {P : Res α → Prop} {O : Outcomes E Q Ent} {p : Prog E Q Ent α} (hp : p.All P)
    (hO : ∀ r e, O r (.error e) → P (.error e)) {x : Res α} (h : p.May O x) : P x := by
  induction p with
  | ret a => cases h; exact hp
  | fail e => cases h; exact hp
  | ask r k ih =>
    rcases h with ⟨a, -, h⟩ | ⟨e, he, rfl⟩
    · exact ih a (hp a) h
    · exact hO r e he
  | attempt r k ih =>
    rcases h with ⟨a, -, h⟩ | ⟨e, ⟨y, hy, he⟩, rfl⟩
    · exact ih a (hp a) h
    · rcases y with (_ | _ | _) | y <;> cases he <;> exact hO r _ hy
  | clear k ih => exact ih hp h
  | store e q p k ih =>
    simp only [Prog.All] at hp
    rcases h with ⟨a, ha, h⟩ | ⟨e, he, rfl⟩
    · rw [← ha] at hp; exact ih hp h
    · rw [← he] at hp; exact hp

theorem CallsMay.safe {X : Err → Prop} (hX : ∀ e, e ≠ .ub → X e) {O : Outcomes E Q Ent}
    (hO : ∀ r e, O r (.error e) → X e) {l : List (Call E Q Ent)}
    (hl : ∀ c ∈ l, c.Safe) {p : Pair E} (hp : p.Typed) {x : Res (Pair E)} (h : CallsMay O l p x) :
    Call.Outcome X p.stat x := by
  induction l generalizing p with
  | nil => cases h; exact ⟨rfl, hp⟩
  | cons c l ih =>
    have hc : ∀ y, (c p).May O y → Call.Outcome X p.stat y := fun y hy =>
      ((hl c (by simp) p hp).mono (R := Call.Outcome X p.stat) fun r hr => by
        cases r with
        | ok p' => exact hr
        | error e => exact hX e hr).may (fun r e he => hO r e he) hy
    rcases h with ⟨p', hp', h⟩ | ⟨e, he, rfl⟩
    · have h1 := hc _ hp'
      have h2 := ih (fun c hc => hl c (by simp [hc])) h1.2 h
      rwa [h1.1] at h2
    · exact hc _ he

/-! ### code -/

section code
variable {G : CacheKey E Q Ent → Option (Buf E) → Prop} {P : CacheKey E Q Ent → Buf E → Prop}

theorem Ev.bind {M : Nat → Res α → Prop} {K : Nat → α → Res β → Prop} {c : CProg E Q Ent α}
    {f : α → CProg E Q Ent β} (hc : CProg.Good G P (Ev M) c) (hM : OutGrows M) (hK : ∀ a, OutGrows (fun n => K n a))
    (hf : ∀ a, (∃ m, M m (.ok a)) → CProg.Good G P (Ev fun m => K m a) (f a)) :
    CProg.Good G P (Ev fun m => Then (M m) (K m)) (c.bind f) := by
  refine hc.bind (fun a ha => ?_) (fun e he hne => ?_)
  · obtain ⟨m, hm⟩ := ha (by simp)
    refine (hf a ⟨m, hm⟩).mono fun x hx hne => ?_
    obtain ⟨m', hm'⟩ := hx hne
    exact ⟨max m m', .inl ⟨a, hM m _ (Nat.le_max_left _ _) _ (by simp) hm, hK a m' _ (Nat.le_max_right _ _) _ hne hm'⟩⟩
  · obtain ⟨m, hm⟩ := he (by simpa using hne)
    exact ⟨m, .inr ⟨e, hm, rfl⟩⟩

theorem Ev.lift (x : Res α) : CProg.Good G P (Ev fun _ y => y = x) (CProg.lift x : CProg E Q Ent α) :=
  CProg.Good.lift fun _ => ⟨0, rfl⟩

theorem Prog.Becomes.good {H : Codes E Q Ent} {O : Nat → Outcomes E Q Ent} (hO : ∀ r, OutGrows (fun n => O n r))
    (hH : ∀ r c, H r c → CProg.Good G P (Ev fun m => O m r) c) {p : Prog E Q Ent α} (hp : p.NoStore)
    {c : CProg E Q Ent α} (h : p.Becomes H c) : CProg.Good G P (Ev fun m => p.May (O m)) c := by
  induction p generalizing c with
  | ret a => cases h; exact fun _ => ⟨0, rfl⟩
  | fail e => cases h; exact fun _ => ⟨0, rfl⟩
  | ask r k ih =>
    obtain ⟨d, g, hd, hg, rfl⟩ := h
    exact Ev.bind (hH r d hd) (hO r) (fun a => OutGrows.may hO (k a)) fun a _ => ih a (hp a) (hg a)
  | attempt r k ih =>
    obtain ⟨d, g, hd, hg, rfl⟩ := h
    refine Ev.bind (M := fun m y => ∃ x, O m r x ∧ y = x.attempt) ?_ ?_ (fun a => OutGrows.may hO (k a))
      fun a _ => ih a (hp a) (hg a)
    · refine (hH r d hd).attempt fun x hx hne => ?_
      obtain ⟨m, hm⟩ := hx fun h => hne (Res.attempt_fuel.2 h)
      exact ⟨m, x, hm, rfl⟩
    · rintro n m hnm _ hx ⟨y, hy, rfl⟩
      exact ⟨y, hO r n m hnm y (fun h => hx (Res.attempt_fuel.2 h)) hy, rfl⟩
  | clear k ih => obtain ⟨d, hd, rfl⟩ := h; have := ih hp hd; exact this
  | store e q p k ih => exact hp.elim

theorem CallsBecome.good {H : Codes E Q Ent} {O : Nat → Outcomes E Q Ent} (hO : ∀ r, OutGrows (fun n => O n r))
    (hH : ∀ r c, H r c → CProg.Good G P (Ev fun m => O m r) c) {l : List (Call E Q Ent)}
    (hl : ∀ c ∈ l, ∀ p, (c p).NoStore) {p : Pair E} {c : CProg E Q Ent (Pair E)} (h : CallsBecome H l p c) :
    CProg.Good G P (Ev fun m => CallsMay (O m) l p) c := by
  induction l generalizing p c with
  | nil => cases h; exact fun _ => ⟨0, rfl⟩
  | cons f l ih =>
    obtain ⟨d, g, hd, hg, rfl⟩ := h
    exact Ev.bind (hd.good hO hH (hl f (by simp) p)) (OutGrows.may hO _) (fun p' => OutGrows.calls hO l p')
      fun p' _ => ih (fun c hc => hl c (by simp [hc])) (hg p')

theorem AnyBecomes.good {H : Codes E Q Ent} {O : Nat → Outcomes E Q Ent} (hO : ∀ r, OutGrows (fun n => O n r))
    (hH : ∀ r c, H r c → CProg.Good G P (Ev fun m => O m r) c) {l : List (Prog E Q Ent Bool)}
    (hl : ∀ c ∈ l, c.NoStore) {c : CProg E Q Ent Bool} (h : AnyBecomes H l c) :
    CProg.Good G P (Ev fun m => AnyMay (O m) l) c := by
  induction l generalizing c with
  | nil => cases h; exact fun _ => ⟨0, rfl⟩
  | cons f l ih =>
    obtain ⟨d, g, hd, hg, rfl⟩ := h
    refine Ev.bind (hd.good hO hH (hl f (by simp))) (OutGrows.may hO _) (fun b => ?_) fun b _ => ?_
    · cases b with
      | true => exact OutGrows.const _
      | false => exact OutGrows.any hO l
    · cases b with
      | true => exact fun _ => ⟨0, rfl⟩
      | false => exact ih (fun c hc => hl c (by simp [hc])) hg

end code

/-- the cached value is one that the query may come to -/
def MixedEntry (A : Addr E) (F : Joined E Q Ent → Prop) (k : CacheKey E Q Ent) (b : Buf E) : Prop :=
  ∃ v : k.stat.Val, b = .val k.stat.ty v ∧ Storable (E.layout k.stat.ty) ∧
    ∃ m, Mixed A F m (.stat k.entity k.query k.stat) (.ok (some v))

def MixedGet (A : Addr E) (F : Joined E Q Ent → Prop) (k : CacheKey E Q Ent) (o : Option (Buf E)) : Prop :=
  ∀ b, o = some b → MixedEntry A F k b

theorem validate_storable {l : Layout} {u : Unit} (h : validate l = .ok u) : Storable l := by
  rw [validate_eq] at h
  by_contra hs
  simp [hs] at h

theorem Ev.shift {r : Req E Q Ent} {J : Joined E Q Ent} (hF : F J) {x : Res r.Resp}
    (h : Ev (fun m => J.May A (Mixed A F m) r) x) : Ev (fun m => Mixed A F m r) x :=
  fun hne => (h hne).elim fun m hm => ⟨m + 1, J, hF, hm⟩

theorem Joined.Becomes.good (hs : ∀ J, F J → J.Safe A) (hn : ∀ J, F J → J.NoStore) {J : Joined E Q Ent} (hJ : F J)
    {H : Codes E Q Ent}
    (hH : ∀ r c, H r c → CProg.Good (MixedGet A F) (MixedEntry A F) (Ev fun m => Mixed A F m r) c)
    (r : Req E Q Ent) (c : CProg E Q Ent r.Resp) (h : J.Becomes A H r c) :
    CProg.Good (MixedGet A F) (MixedEntry A F) (Ev fun m => Mixed A F m r) c := by
  have hO : ∀ r, OutGrows (fun n => Mixed A F n r) := fun r => Mixed.outGrows r
  cases r with
  | stat e q s =>
    obtain ⟨g, hg, rfl⟩ := h
    by_cases hst : Storable (E.layout s.ty)
    swap
    · refine CProg.Good.mono (P := Ev (fun m => J.May A (Mixed A F m) (.stat e q s))) ?_ (fun _ => Ev.shift hJ)
      unfold Joined.statCode
      rw [validate_eq, if_neg hst]
      exact fun _ => ⟨0, .inr ⟨.panic, by rw [validate_eq, if_neg hst], rfl⟩⟩
    unfold Joined.statCode
    rw [validate_eq, if_pos hst, CProg.lift_ok, CProg.bind_ret]
    cases he : J.world.isStat e with
    | false =>
      refine fun _ => ⟨1, J, hJ, .inl ⟨(), by rw [validate_eq, if_pos hst], ?_⟩⟩
      simp only [he]
      rfl
    | true =>
      have hmiss : CProg.Good (MixedGet A F) (MixedEntry A F) (Ev fun m => Mixed A F m (.stat e q s))
          ((CProg.lift (J.world.startValue A s)).bind fun v => (g v).bind fun p =>
            (J.remember e q p).bind fun _ => CProg.lift (StatMap.readAs s (some p.value))) := by
        obtain ⟨v0, hv0⟩ := (hs J hJ).startValue s hst
        rw [hv0, CProg.lift_ok, CProg.bind_ret]
        refine CProg.Good.bind (CallsBecome.good (G := MixedGet A F) (P := MixedEntry A F) hO hH
          ((hn J hJ).stat e q) (hg (.val s.ty v0))) (fun p hp => ?_) (fun x hx hne => ?_)
        · obtain ⟨m, hm⟩ := hp (by simp)
          have h2 := CallsMay.safe (X := fun _ => True) (fun _ _ => trivial) (fun _ _ _ => trivial)
            ((hs J hJ).statCalls e q) (p := ⟨s, .val s.ty v0⟩) ⟨v0, rfl⟩ hm
          obtain ⟨s', b⟩ := p
          obtain ⟨h3, v, hv⟩ := h2
          change s' = s at h3
          subst h3
          change s'.Val at v
          change b = .val s'.ty v at hv
          subst hv
          have key : Mixed A F (m + 1) (.stat e q s') (.ok (some v)) := by
            refine ⟨J, hJ, .inl ⟨(), by rw [validate_eq, if_pos hst], ?_⟩⟩
            simp only [he, if_true]
            exact .inl ⟨_, hv0.symm, .inl ⟨_, hm, .inl ⟨v, (Buf.read_val hst _).symm, rfl⟩⟩⟩
          change CProg.Good _ _ _ ((J.remember e q ⟨s', .val s'.ty v⟩).bind fun _ =>
            CProg.lift (StatMap.readAs s' (some (.val s'.ty v))))
          rw [Joined.remember_eq hst, readAs_val hst]
          cases J.world.cached with
          | false => exact fun _ => ⟨m + 1, key⟩
          | true => exact ⟨⟨v, rfl, hst, m + 1, key⟩, fun _ => ⟨m + 1, key⟩⟩
        · obtain ⟨m, hm⟩ := hx (by simpa using hne)
          refine ⟨m + 1, J, hJ, .inl ⟨(), by rw [validate_eq, if_pos hst], ?_⟩⟩
          simp only [he, if_true]
          exact .inl ⟨_, hv0.symm, .inr ⟨x, hm, rfl⟩⟩
      simp only [if_true, CProg.bind_assoc]
      unfold Joined.lookup
      cases J.world.cached with
      | false =>
        simp only [Bool.false_eq_true, if_false, CProg.bind_ret, CProg.bind_assoc]
        exact hmiss
      | true =>
        simp only [if_true, CProg.bind_get]
        intro o ho
        cases o with
        | none =>
          simp only [Defaults.cloned, CProg.lift_ok, CProg.bind_ret, CProg.bind_assoc]
          exact hmiss
        | some b =>
          obtain ⟨v, rfl, -, m, hm⟩ := ho b rfl
          change s.Val at v
          have hc : Defaults.cloned s (some (.val s.ty v)) = .ok (some (.val s.ty v)) := by
            simp [Defaults.cloned, vtClone_val hst]
          simp only [hc, CProg.lift_ok, CProg.bind_ret, readAs_val hst]
          exact fun _ => ⟨m, hm⟩
  | relation a b q s =>
    obtain ⟨g, hg, rfl⟩ := h
    refine CProg.Good.mono (P := Ev (fun m => J.May A (Mixed A F m) (.relation a b q s))) ?_ (fun _ => Ev.shift hJ)
    unfold Joined.relationCode
    refine Ev.bind (M := fun _ y => y = validate (E.layout s.ty)) (Ev.lift _) (OutGrows.const _) (fun _ => ?_)
      fun _ _ => ?_
    · cases J.world.isStat a && J.world.isStat b with
      | false => exact OutGrows.const _
      | true =>
        simp only [if_true]
        exact OutGrows.then (OutGrows.const _) fun v => OutGrows.then (OutGrows.calls hO _ _) fun _ => OutGrows.const _
    · cases J.world.isStat a && J.world.isStat b with
      | false => exact fun _ => ⟨0, rfl⟩
      | true =>
        simp only [if_true, CProg.bind_assoc, CProg.bind_ret]
        refine Ev.bind (M := fun _ y => y = J.world.startValue A s) (Ev.lift _) (OutGrows.const _)
          (fun v => OutGrows.then (OutGrows.calls hO _ _) fun _ => OutGrows.const _) fun v _ => ?_
        refine Ev.bind (CallsBecome.good hO hH ((hn J hJ).relation a b q) (hg v)) (OutGrows.calls hO _ _)
          (fun _ => OutGrows.const _) fun p _ => ?_
        refine CProg.Good.lift fun _ => ⟨0, ?_⟩
        change Then (· = p.value.read s.ty) (fun x => (· = .ok (some x))) (p.value.read s.ty >>= fun x => .ok (some x))
        cases hr : p.value.read s.ty with
        | ok x => exact .inl ⟨x, rfl, rfl⟩
        | error x => exact .inr ⟨x, rfl, rfl⟩
  | attr e a =>
    refine CProg.Good.mono (P := Ev (fun m => J.May A (Mixed A F m) (.attr e a))) ?_ (fun _ => Ev.shift hJ)
    exact AnyBecomes.good hO hH ((hn J hJ).attr e a) h

theorem MayRun.good (hs : ∀ J, F J → J.Safe A) (hn : ∀ J, F J → J.NoStore) (n : Nat) (r : Req E Q Ent)
    (c : CProg E Q Ent r.Resp) (h : MayRun A F n r c) :
    CProg.Good (MixedGet A F) (MixedEntry A F) (Ev fun m => Mixed A F m r) c := by
  induction n generalizing r c with
  | zero => cases h; exact fun h => absurd rfl h
  | succ n ih =>
    obtain ⟨J, hJ, h⟩ := h
    exact Joined.Becomes.good hs hn hJ ih r c h

/-- no outcome is undefined behaviour, if no answer to a question is -/
theorem Joined.May.safe {J : Joined E Q Ent} (hs : J.Safe A) {O : Outcomes E Q Ent}
    (ho : ∀ r x, O r x → x ≠ .error .ub) {r : Req E Q Ent} {x : Res r.Resp} (h : J.May A O r x) :
    x ≠ .error .ub := by
  have hO : ∀ r e, O r (.error e) → e ≠ .ub := fun r e he h => ho r _ he (by rw [h])
  have hcalls : ∀ (s : StatInst E) (l : List (Call E Q Ent)), (∀ c ∈ l, c.Safe) → Storable (E.layout s.ty) →
      ∀ y : Res (Option s.Val), Then (· = J.world.startValue A s) (fun v => Then (CallsMay O l ⟨s, v⟩)
        fun p => Then (· = p.value.read s.ty) fun x => (· = .ok (some x))) y → y ≠ .error .ub := by
    intro s l hl hst y hy
    obtain ⟨v0, hv0⟩ := hs.startValue s hst
    rw [hv0] at hy
    rcases hy with ⟨v, hv, hy⟩ | ⟨e, he, rfl⟩
    · cases hv
      rcases hy with ⟨p, hp, hy⟩ | ⟨e, he, rfl⟩
      · have h2 := CallsMay.safe (X := fun e => e ≠ .ub) (fun _ h => h) hO hl
          (p := ⟨s, .val s.ty v0⟩) ⟨v0, rfl⟩ hp
        obtain ⟨s', b⟩ := p
        obtain ⟨h3, v, hv⟩ := h2
        change s' = s at h3
        subst h3
        change s'.Val at v
        change b = .val s'.ty v at hv
        subst hv
        rcases hy with ⟨x, -, rfl⟩ | ⟨e, he, rfl⟩
        · intro h; cases h
        · change _ = Buf.read s'.ty (.val s'.ty v) at he
          rw [Buf.read_val hst] at he
          cases he
      · have h2 := CallsMay.safe (X := fun e => e ≠ .ub) (fun _ h => h) hO hl
          (p := ⟨s, .val s.ty v0⟩) ⟨v0, rfl⟩ he
        intro h; cases h; exact h2 rfl
    · cases he
  cases r with
  | stat e q s =>
    rcases h with ⟨u, hu, h⟩ | ⟨y, hy, rfl⟩
    · cases he : J.world.isStat e with
      | false => simp only [he] at h; cases h; intro h; cases h
      | true =>
        simp only [he, if_true] at h
        exact hcalls s _ (hs.statCalls e q) (validate_storable hu.symm) x h
    · intro h; cases h; rw [validate_eq] at hy; split at hy <;> cases hy
  | relation a b q s =>
    rcases h with ⟨u, hu, h⟩ | ⟨y, hy, rfl⟩
    · cases he : J.world.isStat a && J.world.isStat b with
      | false => simp only [he] at h; cases h; intro h; cases h
      | true =>
        simp only [he, if_true] at h
        exact hcalls s _ (hs.relationCalls a b q) (validate_storable hu.symm) x h
    · intro h; cases h; rw [validate_eq] at hy; split at hy <;> cases hy
  | attr e a =>
    have hl := hs.attrCalls e a
    change AnyMay O (J.attrCalls e a) x at h
    change Res Bool at x
    generalize J.attrCalls e a = l at h hl
    induction l with
    | nil => cases h; intro h; cases h
    | cons f l ihl =>
      have hf : ∀ y : Res Bool, f.May (O) y → y ≠ .error .ub := fun y hy =>
        (hl f (by simp)).may (P := fun r => r ≠ .error .ub) (fun r e he h => hO r e he (by simpa using h)) hy
      rcases h with ⟨b, hb, h⟩ | ⟨y, hy, rfl⟩
      · cases b with
        | true => cases h; intro h; cases h
        | false => exact ihl h fun c hc => hl c (by simp [hc])
      · exact hf _ hy

/-- no outcome is undefined behaviour -/
theorem Mixed.safe (hs : ∀ J, F J → J.Safe A) (n : Nat) (r : Req E Q Ent) (x : Res r.Resp)
    (h : Mixed A F n r x) : x ≠ .error .ub := by
  induction n generalizing r with
  | zero => cases h; intro h; cases h
  | succ n ih =>
    obtain ⟨J, hJ, h⟩ := h
    exact Joined.May.safe (hs J hJ) ih h

end BSQ
