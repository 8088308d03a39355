import Verif.Spec.CacheTrace
import Verif.Props.Cache
import Mathlib.Data.Nat.Find
/-! # Which keys a query stores -/
namespace BSQ
set_option linter.unusedSectionVars false
variable {E : Env} {Q Ent α β : Type} [DecidableEq Q] [DecidableEq Ent] {A : Addr E} {J : Joined E Q Ent}

namespace CProg.Good
variable {okGet : CacheKey E Q Ent → Option (Buf E) → Prop} {okPut okPut' : CacheKey E Q Ent → Buf E → Prop}
  {P P' : Res α → Prop}

omit [DecidableEq Q] [DecidableEq Ent] in
theorem and {x : CProg E Q Ent α} (h : Good okGet okPut P x) (h' : Good okGet okPut' P' x) :
    Good okGet (fun k b => okPut k b ∧ okPut' k b) (fun r => P r ∧ P' r) x := by
  induction x with
  | ret a => exact ⟨h, h'⟩
  | fail e => exact ⟨h, h'⟩
  | get k g ih => exact fun o ho => ih o (h o ho) (h' o ho)
  | put k b g ih => exact ⟨⟨h.1, h'.1⟩, ih h.2 h'.2⟩
  | clear g ih => exact ih h h'

omit [DecidableEq Q] [DecidableEq Ent] in
theorem puts {x : CProg E Q Ent α} (h : Good okGet okPut P x) (hp : ∀ k b, okPut k b → okPut' k b) :
    Good okGet okPut' P x := by
  induction x with
  | ret a => exact h
  | fail e => exact h
  | get k g ih => exact fun o ho => ih o (h o ho)
  | put k b g ih => exact ⟨hp _ _ h.1, ih h.2⟩
  | clear g ih => exact ih h

end CProg.Good

/-- the uncached query for the key ends within depth `m` -/
def Within (A : Addr E) (J : Joined E Q Ent) (m : Nat) (k : CacheKey E Q Ent) : Prop :=
  J.answer A m (.stat k.entity k.query k.stat) ≠ .error .fuel

/-- an outcome, if any, is the given one -/
def OkOnly (x : Res α) (res : Res α) : Prop := res ≠ .error .fuel → x = res

theorem OkOnly.error {β : Type} {x : Res α} {e : Err} (h : OkOnly x (.error e)) (f : α → Res β) :
    OkOnly (x >>= f) (.error e) := fun hne => by
  rw [h fun h => hne (by cases h; rfl)]
  rfl

theorem OkOnly.attempt {x r : Res α} (h : OkOnly x r) : OkOnly x.attempt r.attempt := fun hne => by
  rw [h fun h => hne (by rw [h]; rfl)]

section
variable {okGet : CacheKey E Q Ent → Option (Buf E) → Prop} {okPut : CacheKey E Q Ent → Buf E → Prop}
  {o : Oracle E Q Ent} {h : Handler E Q Ent}

omit [DecidableEq Q] [DecidableEq Ent]

theorem Prog.interp_within
    (hh : ∀ r, o r ≠ .error .fuel → CProg.Good okGet okPut (OkOnly (o r)) (h r))
    (p : Prog E Q Ent α) (hn : p.NoStore) (hp : p.eval o ≠ .error .fuel) :
    CProg.Good okGet okPut (OkOnly (p.eval o)) (p.interp h) := by
  induction p with
  | ret a => exact fun _ => rfl
  | fail e => exact fun _ => rfl
  | ask r k ih =>
    have hr : o r ≠ .error .fuel := by
      intro h; simp only [Prog.eval, h] at hp; exact hp rfl
    refine (hh r hr).bind (fun a ha => ?_) (fun e he => he.error _)
    have ha := ha (by simp)
    simp only [Prog.eval, ha, Res.bind_ok] at hp ⊢
    exact ih a (hn a) hp
  | attempt r k ih =>
    have hr : o r ≠ .error .fuel := by
      intro h; simp only [Prog.eval, h] at hp; exact hp rfl
    refine ((hh r hr).attempt (R := OkOnly (o r).attempt) fun _ => OkOnly.attempt).bind (fun a ha => ?_)
      (fun e he => he.error _)
    have ha := ha (by simp)
    simp only [Prog.eval, ha, Res.bind_ok] at hp ⊢
    exact ih a (hn a) hp
  | clear k ih => exact ih hn hp
  | store e q p k ih => exact hn.elim

theorem callsCode_within
    (hh : ∀ r, o r ≠ .error .fuel → CProg.Good okGet okPut (OkOnly (o r)) (h r))
    (l : List (Call E Q Ent)) (hn : ∀ c ∈ l, ∀ p, (c p).NoStore) (p : Pair E) (hp : runCalls o l p ≠ .error .fuel) :
    CProg.Good okGet okPut (OkOnly (runCalls o l p)) (callsCode h l p) := by
  induction l generalizing p with
  | nil => exact fun _ => rfl
  | cons c l ih =>
    have hr : (c p).eval o ≠ .error .fuel := by
      intro h; simp only [runCalls, h] at hp; exact hp rfl
    refine (Prog.interp_within hh (c p) (hn c List.mem_cons_self p) hr).bind (fun a ha => ?_) (fun e he => he.error _)
    have ha := ha (by simp)
    simp only [runCalls, ha, Res.bind_ok] at hp ⊢
    exact ih (fun c hc => hn c (List.mem_cons_of_mem _ hc)) a hp

theorem anyCode_within
    (hh : ∀ r, o r ≠ .error .fuel → CProg.Good okGet okPut (OkOnly (o r)) (h r))
    (l : List (Prog E Q Ent Bool)) (hn : ∀ c ∈ l, c.NoStore) (hp : anyCalls o l ≠ .error .fuel) :
    CProg.Good okGet okPut (OkOnly (anyCalls o l)) (anyCode h l) := by
  induction l with
  | nil => exact fun _ => rfl
  | cons c l ih =>
    have hr : c.eval o ≠ .error .fuel := by
      intro h; simp only [anyCalls, h] at hp; exact hp rfl
    refine (Prog.interp_within hh c (hn c List.mem_cons_self) hr).bind (fun a ha => ?_) (fun e he => he.error _)
    have ha := ha (by simp)
    simp only [anyCalls, ha, Res.bind_ok] at hp ⊢
    cases a with
    | true => exact fun _ => rfl
    | false => exact ih (fun c hc => hn c (List.mem_cons_of_mem _ hc)) hp

end

/-- a query that ends within some depth only stores results of queries that do -/
theorem Joined.Safe.puts_within (hJ : J.Safe A) (hn : J.NoStore) (m : Nat) : ∀ (n : Nat) (r : Req E Q Ent),
    J.answer A m r ≠ .error .fuel →
    CProg.Good (ValidGet A J) (fun k b => ValidEntry A J k b ∧ Within A J m k) (OkOnly (J.answer A m r))
      (J.handle A n r) := by
  induction m with
  | zero => exact fun _ _ h => absurd rfl h
  | succ m ih =>
    intro n r hr
    have hfaith := (hJ.honest hn).faithful n r
    refine CProg.Good.mono (CProg.Good.and (okPut' := fun k _ => Within A J (m + 1) k) (P' := fun _ => True)
      hfaith ?_) ?_
    · cases n with
      | zero => trivial
      | succ n =>
        have hh : ∀ r, J.answer A m r ≠ .error .fuel → CProg.Good (ValidGet A J)
            (fun k _ => Within A J (m + 1) k) (OkOnly (J.answer A m r)) (J.handle A n r) := fun r hr =>
          (ih n r hr).puts fun k _ h => by
            unfold Within
            rw [J.answer_le A (Nat.le_succ m) _ h.2]
            exact h.2
        cases r with
        | stat e q s =>
          change CProg.Good _ _ _ ((CProg.lift _).bind fun _ => _)
          refine (CProg.Good.lift (P := fun r => r = validate (E.layout s.ty)) rfl).bind (fun _ hv => ?_)
            (fun _ _ => trivial)
          have hs : Storable (E.layout s.ty) := by
            rw [validate_eq] at hv
            by_contra hs
            simp [hs] at hv
          refine CProg.Good.bind (P := fun _ => True) ?_ (fun _ _ => CProg.Good.lift trivial) (fun _ _ => trivial)
          unfold Joined.queryStatErased
          cases he : J.world.isStat e with
          | false => trivial
          | true =>
            simp only [if_true]
            have hmiss : CProg.Good (ValidGet A J) (fun k _ => Within A J (m + 1) k) (fun _ => True)
                (J.miss A (J.handle A n) e q s) := by
              obtain ⟨v0, hv0⟩ := hJ.startValue s hs
              have hr' := hr
              rw [Joined.answer_body hs he, Joined.body, hv0, Res.bind_ok] at hr'
              have hne : runCalls (J.answer A m) (J.statCalls e q) ⟨s, .val s.ty v0⟩ ≠ .error .fuel := by
                intro h; rw [h] at hr'; exact hr' rfl
              unfold Joined.miss
              simp only [CProg.bind_eq, J.compute_eq, hv0, CProg.lift_ok, CProg.bind_ret]
              refine (callsCode_within hh _ (hn.stat e q) _ hne).bind (fun p hp => ?_) (fun _ _ => trivial)
              obtain ⟨v, rfl⟩ := hJ.computed hs (p := p) (by rw [hv0, Res.bind_ok]; exact hp (by simp))
              rw [Joined.remember_eq hs]
              cases J.world.cached with
              | false => trivial
              | true => exact ⟨hr, trivial⟩
            unfold Joined.lookup
            cases J.world.cached with
            | false => exact hmiss
            | true =>
              simp only [if_true, CProg.bind_eq, CProg.bind_get]
              intro o _
              refine CProg.Good.bind (P := fun _ => True) (CProg.Good.lift trivial) (fun o _ => ?_) (fun _ _ => trivial)
              cases o with
              | none => exact hmiss
              | some b => trivial
        | relation a b q s =>
          change CProg.Good _ _ _ ((CProg.lift _).bind fun _ => _)
          refine (CProg.Good.lift (P := fun r => r = validate (E.layout s.ty)) rfl).bind (fun _ hv => ?_)
            (fun _ _ => trivial)
          refine CProg.Good.bind (P := fun _ => True) ?_ (fun _ _ => CProg.Good.lift trivial) (fun _ _ => trivial)
          rw [J.answer_succ] at hr
          rw [J.queryRelationErased_eq]
          simp only [Joined.ideal, ← hv, Res.bind_ok] at hr
          cases he : J.world.isStat a && J.world.isStat b with
          | false => trivial
          | true =>
            rw [he] at hr
            simp only [if_true] at hr ⊢
            refine (CProg.Good.lift (P := fun r => r = J.world.startValue A s) rfl).bind (fun v hv => ?_)
              (fun _ _ => trivial)
            rw [← hv, Res.bind_ok] at hr
            have hne : runCalls (J.answer A m) (J.relationCalls a b q) ⟨s, v⟩ ≠ .error .fuel := by
              intro h; rw [h] at hr; exact hr rfl
            exact (callsCode_within hh _ (hn.relation a b q) _ hne).bind (fun p _ => trivial) (fun _ _ => trivial)
        | attr e a =>
          change CProg.Good _ _ _ (J.hasAttributeErased _ e a)
          rw [J.hasAttributeErased_eq]
          rw [J.answer_succ] at hr
          exact (anyCode_within hh _ (hn.attr e a) hr).mono (fun _ _ => trivial)
    · rintro res ⟨hf, -⟩ hne
      obtain ⟨m', hm'⟩ := hf.2 hne
      change J.answer A m' r = _ at hm'
      rw [← hm']
      exact J.answer_unique A hr (by rw [hm']; exact hne)

/-- while a stat is assembled, it is not stored by anybody the code asks -/
theorem Joined.Safe.compute_puts_ne (hJ : J.Safe A) (hn : J.NoStore) (n : Nat) {e : Ent} (q : QualifierQuery Q) {s : StatInst E}
    (hs : Storable (E.layout s.ty)) (he : J.world.isStat e = true) :
    CProg.Good (ValidGet A J) (fun k b => ValidEntry A J k b ∧ k ≠ ⟨e, q, s⟩) (fun _ => True)
      (J.compute A (J.handle A n) e q s) := by
  classical
  obtain ⟨v0, hv0⟩ := hJ.startValue s hs
  simp only [J.compute_eq, hv0, CProg.lift_ok, CProg.bind_ret]
  by_cases h : ∃ m, J.answer A m (.stat e q s) ≠ .error .fuel
  · obtain ⟨m, hm⟩ : ∃ m, Nat.find h = m + 1 := by
      cases hf : Nat.find h with
      | zero =>
        have := Nat.find_spec h
        rw [hf] at this
        exact absurd rfl this
      | succ m => exact ⟨m, rfl⟩
    have hr := Nat.find_spec h
    rw [hm, Joined.answer_body hs he, Joined.body, hv0, Res.bind_ok] at hr
    have hne : runCalls (J.answer A m) (J.statCalls e q) ⟨s, .val s.ty v0⟩ ≠ .error .fuel := by
      intro h; rw [h] at hr; exact hr rfl
    refine ((callsCode_within (hJ.puts_within hn m n) _ (hn.stat e q) _ hne).puts ?_).mono (fun _ _ => trivial)
    rintro k b ⟨hk, hw⟩
    refine ⟨hk, ?_⟩
    rintro rfl
    exact Nat.find_min h (m := m) (by omega) hw
  · refine ((Faith.calls (o := fun m => J.answer A m) answer_mono (fun r => (hJ.honest hn).faithful n r) _ _
      (HonestCalls.of_noStore (hn.stat e q) _).ok).puts ?_).mono
      (fun _ _ => trivial)
    intro k b hk
    refine ⟨hk, ?_⟩
    rintro rfl
    obtain ⟨v, -, -, m, hm⟩ := hk
    exact h ⟨m, by rw [hm]; simp⟩

/-! ### nothing is stored under a key in use -/

/-- the run stores only under keys not in use, and clears succeed -/
def CProg.Fresh (A : Addr E) : CProg E Q Ent α → Cache E Q Ent → Prop
  | .ret _, _ => True
  | .fail _, _ => True
  | .get k f, c => Fresh A (f (HMap.get (CacheKey.eq A) c k)) c
  | .put k b f, c => HMap.get (CacheKey.eq A) c k = none ∧ Fresh A f (HMap.insert (CacheKey.eq A) c k b).1
  | .clear f, c => c.clear = .ok [] ∧ Fresh A f []

theorem CProg.Fresh.lift (r : Res α) (c : Cache E Q Ent) : (CProg.lift r : CProg E Q Ent α).Fresh A c := by
  cases r <;> trivial

theorem CProg.Fresh.bind {x : CProg E Q Ent α} {f : α → CProg E Q Ent β} {c : Cache E Q Ent} (hx : x.Fresh A c)
    (hf : ∀ a, (x.run A c).1 = .ok a → (f a).Fresh A (x.run A c).2) : (x.bind f).Fresh A c := by
  induction x generalizing c with
  | ret a => exact hf a rfl
  | fail e => trivial
  | get k g ih => exact ih _ hx hf
  | put k b g ih => exact ⟨hx.1, ih hx.2 hf⟩
  | clear g ih =>
    rw [CProg.run_clear_ok A c hx.1] at hf
    exact ⟨hx.1, ih hx.2 hf⟩

/-- as `Fresh`, from any right cache, leaving a right cache -/
def CProg.FreshOn (A : Addr E) (J : Joined E Q Ent) (x : CProg E Q Ent α) : Prop :=
  ∀ c, CacheValid A J c → x.Fresh A c ∧ CacheValid A J (x.run A c).2

theorem CProg.FreshOn.lift (r : Res α) : (CProg.lift r : CProg E Q Ent α).FreshOn A J :=
  fun c hc => ⟨.lift r c, by rw [CProg.run_lift]; exact hc⟩

theorem CProg.FreshOn.bind {x : CProg E Q Ent α} {f : α → CProg E Q Ent β} (hx : x.FreshOn A J)
    (hf : ∀ a, (f a).FreshOn A J) : (x.bind f).FreshOn A J := by
  intro c hc
  obtain ⟨h1, h2⟩ := hx c hc
  refine ⟨h1.bind fun a _ => (hf a _ h2).1, ?_⟩
  rw [CProg.run_bind]
  revert h2
  rcases x.run A c with ⟨a | a, c'⟩
  · exact fun h => h
  · exact fun h => (hf a c' h).2

theorem CProg.Fresh.attempt {x : CProg E Q Ent α} {c : Cache E Q Ent} (hx : x.Fresh A c) :
    x.attempt.Fresh A c ∧ x.attempt.run A c = ((x.run A c).1.attempt, (x.run A c).2) := by
  induction x generalizing c with
  | ret a => exact ⟨trivial, rfl⟩
  | fail e => cases e <;> exact ⟨trivial, rfl⟩
  | get k g ih => exact ih _ hx
  | put k b g ih => exact ⟨⟨hx.1, (ih hx.2).1⟩, (ih hx.2).2⟩
  | clear g ih =>
    rw [CProg.attempt_clear, CProg.run_clear_ok A c hx.1, CProg.run_clear_ok A c hx.1]
    exact ⟨⟨hx.1, (ih hx.2).1⟩, (ih hx.2).2⟩

theorem CProg.FreshOn.attempt {x : CProg E Q Ent α} (hx : x.FreshOn A J) : x.attempt.FreshOn A J := by
  intro c hc
  obtain ⟨h1, h2⟩ := hx c hc
  refine ⟨h1.attempt.1, ?_⟩
  rw [h1.attempt.2]
  exact h2

theorem Prog.freshOn {h : Handler E Q Ent} (hh : ∀ r, (h r).FreshOn A J) (p : Prog E Q Ent α)
    (hp : p.NoStore) : (p.interp h).FreshOn A J := by
  induction p with
  | ret a => exact CProg.FreshOn.lift (.ok a)
  | fail e => exact CProg.FreshOn.lift (.error e)
  | ask r k ih => exact (hh r).bind fun x => ih x (hp x)
  | attempt r k ih => exact (hh r).attempt.bind fun x => ih x (hp x)
  | clear k ih =>
    intro c hc
    have := ih hp [] (fun x hx => by cases hx)
    refine ⟨⟨hc.typed.clear, this.1⟩, ?_⟩
    change CacheValid A J ((CProg.clear (k.interp h)).run A c).2
    rw [CProg.run_clear_ok A c hc.typed.clear]
    exact this.2
  | store e q p k ih => exact hp.elim

theorem callsCode_freshOn {h : Handler E Q Ent} (hh : ∀ r, (h r).FreshOn A J) (l : List (Call E Q Ent))
    (hl : ∀ c ∈ l, ∀ p, (c p).NoStore) (p : Pair E) : (callsCode h l p).FreshOn A J := by
  induction l generalizing p with
  | nil => exact CProg.FreshOn.lift (.ok p)
  | cons c l ih =>
    exact (Prog.freshOn hh (c p) (hl c List.mem_cons_self p)).bind
      (ih fun c hc => hl c (List.mem_cons_of_mem _ hc))

theorem anyCode_freshOn {h : Handler E Q Ent} (hh : ∀ r, (h r).FreshOn A J) (l : List (Prog E Q Ent Bool))
    (hl : ∀ c ∈ l, c.NoStore) : (anyCode h l).FreshOn A J := by
  induction l with
  | nil => exact CProg.FreshOn.lift (.ok false)
  | cons c l ih =>
    refine (Prog.freshOn hh c (hl c List.mem_cons_self)).bind fun b => ?_
    cases b
    · exact ih fun c hc => hl c (List.mem_cons_of_mem _ hc)
    · exact CProg.FreshOn.lift (.ok true)

theorem Joined.Safe.freshOn (hJ : J.Safe A) (hn : J.NoStore) (n : Nat) (r : Req E Q Ent) : (J.handle A n r).FreshOn A J := by
  induction n generalizing r with
  | zero => exact CProg.FreshOn.lift (.error .fuel)
  | succ n ih =>
    intro c hc
    refine ⟨?_, ((hJ.honest hn).right.run_valid hc (n + 1) r).2⟩
    cases r with
    | stat e q s =>
      change CProg.Fresh A ((CProg.lift _).bind fun _ => _) c
      refine (CProg.Fresh.lift _ _).bind (fun _ hv => ?_)
      rw [CProg.run_lift] at hv ⊢
      have hs : Storable (E.layout s.ty) := by
        change validate _ = _ at hv
        rw [validate_eq] at hv
        by_contra hs
        simp [hs] at hv
      refine CProg.Fresh.bind ?_ (fun _ _ => CProg.Fresh.lift _ _)
      unfold Joined.queryStatErased
      cases he : J.world.isStat e with
      | false => trivial
      | true =>
        simp only [if_true]
        unfold Joined.lookup
        have hcomp : (J.compute A (J.handle A n) e q s).FreshOn A J := by
          rw [J.compute_eq]
          exact (CProg.FreshOn.lift _).bind fun v => callsCode_freshOn ih _ (hn.stat e q) _
        cases hcd : J.world.cached with
        | false =>
          refine ((hcomp c hc).1).bind fun p hp => ?_
          simp only [Joined.remember, hcd]
          trivial
        | true =>
          simp only [if_true, CProg.bind_eq, CProg.bind_get]
          change CProg.Fresh A (CProg.bind _ _) c
          refine (CProg.Fresh.lift _ _).bind (fun o ho => ?_)
          rw [CProg.run_lift] at ho ⊢
          cases hk : HMap.get (CacheKey.eq A) c ⟨e, q, s⟩ with
          | some b =>
            rw [hk] at ho
            obtain ⟨v, hv, -⟩ := hc.get ⟨e, q, s⟩ b hk
            change s.Val at v
            change b = .val s.ty v at hv
            subst hv
            simp only [Defaults.cloned, vtClone_val hs] at ho
            cases ho
            trivial
          | none =>
            rw [hk] at ho
            cases ho
            refine ((hcomp c hc).1).bind fun p hp => ?_
            obtain ⟨v0, hv0⟩ := hJ.startValue s hs
            have hok := (hJ.compute_puts_ne hn n q hs he).run (A := A)
              (fun c => CacheValid A J c ∧ HMap.get (CacheKey.eq A) c ⟨e, q, s⟩ = none)
              (fun _ h k => h.1.get k)
              (fun c k b h hb => ⟨h.1.insert hb.1, by
                rw [HMap.get_insert (CacheKey.eq_iff A)]
                simp [hb.2, h.2]⟩)
              (fun c h => by rw [h.1.typed.clear]; exact ⟨fun x hx => (by cases hx), rfl⟩)
              (c := c) ⟨hc, hk⟩
            have hp' : ∃ v : s.Val, p = ⟨s, .val s.ty v⟩ := by
              have hp2 := (callsCode_safe (X := fun _ => True) (okGet := fun _ _ => True) (okPut := fun _ _ => True)
                (h := J.handle A n) (hJ.statCalls e q) (p := ⟨s, .val s.ty v0⟩) ⟨v0, rfl⟩
                (fun r => (CProg.Good.any _).mono (fun r _ => by cases r <;> trivial)) (fun _ _ => trivial)
                (fun _ _ _ => .inl fun _ _ _ => trivial)).outcome A (fun _ => trivial) c
              simp only [J.compute_eq, hv0, CProg.lift_ok, CProg.bind_ret] at hp
              rw [hp] at hp2
              obtain ⟨s', b⟩ := p
              obtain ⟨hss, v', hv'⟩ := hp2
              change s' = s at hss
              subst hss
              change s'.Val at v'
              change b = .val s'.ty v' at hv'
              exact ⟨v', by rw [hv']⟩
            obtain ⟨v, rfl⟩ := hp'
            simp only [Joined.remember_eq hs, hcd, if_true, CProg.bind_eq, CProg.bind_put, CProg.bind_ret]
            exact ⟨hok.2.2, trivial⟩
    | relation a b q s =>
      change CProg.Fresh A ((CProg.lift _).bind fun _ => _) c
      refine (CProg.Fresh.lift _ _).bind (fun _ hv => ?_)
      rw [CProg.run_lift]
      rw [J.queryRelationErased_eq]
      cases J.world.isStat a && J.world.isStat b with
      | false => exact (CProg.FreshOn.bind (CProg.FreshOn.lift (.ok none)) fun o => CProg.FreshOn.lift _) c hc |>.1
      | true =>
        simp only [if_true]
        exact (((CProg.FreshOn.lift _).bind fun v => (callsCode_freshOn ih _ (hn.relation a b q) _).bind fun p =>
          CProg.FreshOn.lift (.ok (some p.value))).bind fun o => CProg.FreshOn.lift _) c hc |>.1
    | attr e a =>
      change CProg.Fresh A (J.hasAttributeErased _ e a) c
      rw [J.hasAttributeErased_eq]
      exact (anyCode_freshOn ih _ (hn.attr e a) c hc).1

/-! ### traces -/

/-- the list has the keys in use -/
def KeysOf (A : Addr E) (c : Cache E Q Ent) (ks : List (CacheKey E Q Ent)) : Prop :=
  ∀ k, k ∈ ks ↔ HMap.get (CacheKey.eq A) c k ≠ none

theorem CProg.Fresh.noneTwice {x : CProg E Q Ent α} {c : Cache E Q Ent} (hx : x.Fresh A c)
    {ks : List (CacheKey E Q Ent)} (hks : KeysOf A c ks) (os : List (HOp E (CacheKey E Q Ent)))
    (h : ∀ ks', KeysOf A (x.run A c).2 ks' → NoneTwice ks' os) : NoneTwice ks (x.accesses A c ++ os) := by
  induction x generalizing c ks with
  | ret a => exact h ks hks
  | fail e => exact h ks hks
  | get k g ih => exact ih _ hx hks h
  | put k b g ih =>
    refine ⟨fun hk => (hks k).1 hk hx.1, ih hx.2 (fun k' => ?_) h⟩
    rw [List.mem_cons, hks k', HMap.get_insert (CacheKey.eq_iff A)]
    by_cases hkk : k' = k
    · simp [hkk]
    · simp [hkk, Ne.symm hkk]
  | clear g ih =>
    rw [CProg.run_clear_ok A c hx.1] at h
    simp only [CProg.accesses, hx.1, List.cons_append, NoneTwice]
    exact ih hx.2 (fun k => by simp [HMap.get]) h

end BSQ
