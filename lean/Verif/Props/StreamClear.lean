import Verif.Props.Cache
/-!
# C92: streams that clear the cache

`StatCache` is a public resource, and `clear` takes `&self`, so a stream can clear the cache that the query it is
part of is using.  That no deadlock arises, that results stay right and that clearing is one step among others is
in C87, C88, C48 and C50, which hold for such streams too.
-/
namespace BSQ
set_option linter.unusedSectionVars false
variable {E : Env} {Q Ent : Type} [DecidableEq Q] [DecidableEq Ent] {A : Addr E} {J : Joined E Q Ent}

/-- a call whose first act is to clear the cache -/
def Call.Clears (c : Call E Q Ent) : Prop := ∀ p, ∃ k, c p = .clear k

theorem history_valid (hJ : J.Right A) (evs : List (Event E Q Ent))
    (hq : ∀ ev ∈ evs, ev.isQuery = true ∨ ev = .clear) {c : Cache E Q Ent} (hc : CacheValid A J c) :
    CacheValid A J (history A J c evs).2 := by
  induction evs generalizing c with
  | nil => exact hc
  | cons ev evs ih =>
    have ih' := @ih (fun ev h => hq ev (List.mem_cons_of_mem _ h))
    cases ev with
    | query n r => exact ih' (hJ.run_valid hc n r).2
    | clear =>
      simp only [history, hc.typed.clear]
      exact ih' (fun x hx => by cases hx)
    | change J'' => rcases hq _ List.mem_cons_self with h | h <;> cases h

theorem CallsOk.left {okPut : CacheKey E Q Ent → Buf E → Prop} {o : Nat → Oracle E Q Ent} {l₁ l₂ : List (Call E Q Ent)}
    {p : Pair E} (h : CallsOk okPut o (l₁ ++ l₂) p) : CallsOk okPut o l₁ p := by
  induction l₁ generalizing p with
  | nil => trivial
  | cons c l ih => exact ⟨h.1, fun m p' hp => ih (h.2 m p' hp)⟩

theorem callsCode_forgets (hJ : J.Right A) {c c' : Cache E Q Ent} (hc : CacheValid A J c) (hc' : CacheValid A J c')
    (n : Nat) (l₁ : List (Call E Q Ent)) {x : Call E Q Ent} (l₂ : List (Call E Q Ent)) (hx : x.Clears) (p : Pair E)
    (hp : HonestCalls A J (l₁ ++ x :: l₂) p)
    (h : ∃ p', ((callsCode (J.handle A n) (l₁ ++ x :: l₂) p).run A c).1 = .ok p')
    (h' : ((callsCode (J.handle A n) (l₁ ++ x :: l₂) p).run A c').1 ≠ .error .fuel) :
    (callsCode (J.handle A n) (l₁ ++ x :: l₂) p).run A c = (callsCode (J.handle A n) (l₁ ++ x :: l₂) p).run A c' := by
  have good := Faith.calls (o := fun m => J.answer A m) answer_mono (fun r => hJ.faithful n r) l₁ p hp.ok.left
  have run : ∀ {c : Cache E Q Ent}, CacheValid A J c →
      Faith (fun m => runCalls (J.answer A m) l₁ p) n ((callsCode (J.handle A n) l₁ p).run A c).1 ∧
        CacheValid A J ((callsCode (J.handle A n) l₁ p).run A c).2 := fun hc =>
    good.run (CacheValid A J) (fun _ h k => h.get k) (fun _ _ _ h hb => h.insert hb)
      (fun c h => by rw [h.typed.clear]; exact fun x hx => by cases hx) hc
  rw [callsCode_append, CProg.run_bind] at h h' ⊢
  rw [CProg.run_bind]
  have h1 := run hc
  have h2 := run hc'
  cases hr : (callsCode (J.handle A n) l₁ p).run A c with
  | mk o c₁ =>
    cases hr' : (callsCode (J.handle A n) l₁ p).run A c' with
    | mk o' c₁' =>
      rw [hr] at h h1
      rw [hr'] at h' h2
      cases o with
      | error e => obtain ⟨_, h⟩ := h; cases h
      | ok p₁ =>
        have hne : o' ≠ .error .fuel := by
          rintro rfl
          exact h' rfl
        obtain ⟨m, hm⟩ := h1.1.2 (by simp)
        obtain ⟨m', hm'⟩ := h2.1.2 hne
        have hmono : DepthMono (fun m => runCalls (J.answer A m) l₁ p) := DepthMono.calls answer_mono l₁ p
        have e1 : runCalls (J.answer A (max m m')) l₁ p = .ok p₁ :=
          (hmono m (max m m') (Nat.le_max_left _ _) (by rw [hm]; simp)).trans hm
        have e2 : runCalls (J.answer A (max m m')) l₁ p = o' :=
          (hmono m' (max m m') (Nat.le_max_right _ _) (by rw [hm']; exact hne)).trans hm'
        rw [e1] at e2
        subst e2
        obtain ⟨k, hk⟩ := hx p₁
        simp only [callsCode, hk]
        change (CProg.clear (CProg.bind _ _)).run A c₁ = (CProg.clear (CProg.bind _ _)).run A c₁'
        rw [CProg.run_clear, CProg.run_clear, h1.2.typed.clear, h2.2.typed.clear]

/-- C92, for well-behaved streams: whatever was queried before, and whichever streams clear the cache at whatever
point, a query returns what it returns without a cache -/
theorem C92_returns (hJ : J.Right A) (evs : List (Event E Q Ent))
    (hq : ∀ ev ∈ evs, ev.isQuery = true ∨ ev = .clear) (n : Nat) (r : Req E Q Ent) :
    Faithful A J n r ((J.handle A n r).run A (history A J [] evs).2).1 :=
  (hJ.run_valid (history_valid hJ evs hq (fun x hx => by cases hx)) n r).1

/-- C92, for well-behaved streams: when a source of a stat clears the cache, a query of that stat that is not
answered from the cache, and returns, leaves nothing in the cache of what was there before: it returns the same, and
leaves the same behind, whatever was queried before -/
theorem C92_forgets (hJ : J.Right A) (evs evs' : List (Event E Q Ent))
    (hq : ∀ ev ∈ evs ++ evs', ev.isQuery = true ∨ ev = .clear) (n : Nat) (e : Ent) (q : QualifierQuery Q)
    (s : StatInst E) (x : Call E Q Ent) (hx : x ∈ J.statCalls e q) (hcl : x.Clears)
    (hk : HMap.get (CacheKey.eq A) (history A J [] evs).2 ⟨e, q, s⟩ = none)
    (hk' : HMap.get (CacheKey.eq A) (history A J [] evs').2 ⟨e, q, s⟩ = none) (v : Option s.Val)
    (h : ((J.handle A n (.stat e q s)).run A (history A J [] evs).2).1 = .ok v)
    (h' : ((J.handle A n (.stat e q s)).run A (history A J [] evs').2).1 ≠ .error .fuel)
    (he : J.world.isStat e = true) :
    (J.handle A n (.stat e q s)).run A (history A J [] evs).2 =
      (J.handle A n (.stat e q s)).run A (history A J [] evs').2 := by
  have hc := history_valid hJ evs (fun ev h => hq ev (List.mem_append_left _ h)) (c := []) (fun x hx => by cases hx)
  have hc' := history_valid hJ evs' (fun ev h => hq ev (List.mem_append_right _ h)) (c := []) (fun x hx => by cases hx)
  generalize (history A J [] evs).2 = c at hk h hc ⊢
  generalize (history A J [] evs').2 = c' at hk' h' hc' ⊢
  cases n with
  | zero => cases h
  | succ n =>
    suffices key : ∀ y : CProg E Q Ent (Option s.Val), y =
        ((CProg.lift (validate (E.layout s.ty))).bind fun _ =>
          (J.queryStatErased A (J.handle A n) e q s).bind fun o => CProg.lift (StatMap.readAs s o)) →
        (y.run A c).1 = .ok v → (y.run A c').1 ≠ .error .fuel → y.run A c = y.run A c' from
      key (J.handle A (n + 1) (.stat e q s)) rfl h h'
    clear h h'
    rintro y rfl h h'
    by_cases hs : Storable (E.layout s.ty)
    swap
    · simp only [validate_eq, hs, if_false] at h; cases h
    have hlook : ∀ {c : Cache E Q Ent}, HMap.get (CacheKey.eq A) c ⟨e, q, s⟩ = none →
        ((CProg.lift (validate (E.layout s.ty))).bind fun _ =>
          (J.queryStatErased A (J.handle A n) e q s).bind fun o => CProg.lift (StatMap.readAs s o)).run A c =
        ((J.miss A (J.handle A n) e q s).bind fun o => CProg.lift (StatMap.readAs s o)).run A c := by
      intro c hk
      simp only [validate_eq, hs, if_true, CProg.lift_ok, CProg.bind_ret, Joined.queryStatErased, he, Joined.lookup,
        CProg.bind_eq]
      cases J.world.cached with
      | false => rfl
      | true =>
        simp only [if_true, CProg.bind_get, CProg.run_get, hk, Defaults.cloned, CProg.lift_ok, CProg.bind_ret]
    rw [hlook hk] at h ⊢
    rw [hlook hk'] at h' ⊢
    obtain ⟨l₁, l₂, hl⟩ := List.append_of_mem hx
    obtain ⟨v0, hv0⟩ : ∃ v0, J.world.startValue A s = .ok v0 := by
      cases hv0 : J.world.startValue A s with
      | ok v0 => exact ⟨v0, rfl⟩
      | error x =>
        rw [Joined.miss, J.compute_eq, hv0] at h
        cases h
    simp only [Joined.miss, J.compute_eq, hv0, CProg.lift_ok, CProg.bind_ret, CProg.bind_eq, CProg.bind_assoc, hl]
      at h h' ⊢
    have hf := callsCode_forgets hJ hc hc' n l₁ l₂ hcl ⟨s, v0⟩ (hl ▸ hJ.stat e q s _ he hv0)
    rw [CProg.run_bind] at h h' ⊢
    rw [CProg.run_bind (c := c')]
    rw [hf]
    · cases hr : (callsCode (J.handle A n) (l₁ ++ x :: l₂) ⟨s, v0⟩).run A c with
      | mk o c₁ =>
        rw [hr] at h
        cases o with
        | ok p => exact ⟨p, rfl⟩
        | error x => cases h
    · intro hr
      cases hr' : (callsCode (J.handle A n) (l₁ ++ x :: l₂) ⟨s, v0⟩).run A c' with
      | mk o c₁ =>
        rw [hr'] at h' hr
        change o = _ at hr
        subst hr
        exact h' rfl

/-- C92, for well-behaved streams: when the last source of a stat clears the cache and asks nothing afterwards, a
query of that stat that is not answered from the cache, and returns, leaves its own result behind and nothing else -/
theorem C92_leaves (hJ : J.Honest A) (evs : List (Event E Q Ent))
    (hq : ∀ ev ∈ evs, ev.isQuery = true ∨ ev = .clear) (n : Nat) (e : Ent) (q : QualifierQuery Q)
    (s : StatInst E) (l : List (Call E Q Ent)) (x : Call E Q Ent) (hx : J.statCalls e q = l ++ [x])
    (hcl : ∀ p, ∃ r, x p = .clear (.lift r)) (he : J.world.isStat e = true) (hcd : J.world.cached = true)
    (hk : HMap.get (CacheKey.eq A) (history A J [] evs).2 ⟨e, q, s⟩ = none) (v : s.Val)
    (h : ((J.handle A n (.stat e q s)).run A (history A J [] evs).2).1 = .ok (some v)) :
    ((J.handle A n (.stat e q s)).run A (history A J [] evs).2).2 = [(⟨e, q, s⟩, .val s.ty v)] := by
  have hc := history_valid hJ.right evs hq (c := []) (fun x hx => by cases hx)
  generalize (history A J [] evs).2 = c at hk h hc ⊢
  cases n with
  | zero => cases h
  | succ n =>
    suffices key : ∀ y : CProg E Q Ent (Option s.Val), y =
        ((CProg.lift (validate (E.layout s.ty))).bind fun _ =>
          (J.queryStatErased A (J.handle A n) e q s).bind fun o => CProg.lift (StatMap.readAs s o)) →
        (y.run A c).1 = .ok (some v) → (y.run A c).2 = [(⟨e, q, s⟩, .val s.ty v)] from
      key (J.handle A (n + 1) (.stat e q s)) rfl h
    clear h
    rintro y rfl h
    by_cases hs : Storable (E.layout s.ty)
    swap
    · simp only [validate_eq, hs, if_false] at h; cases h
    obtain ⟨v0, hv0⟩ := hJ.safe.startValue s hs
    simp only [validate_eq, hs, if_true, CProg.lift_ok, CProg.bind_ret, Joined.queryStatErased, he, Joined.lookup,
      CProg.bind_eq, hcd, CProg.bind_get, CProg.run_get, hk, Defaults.cloned, Joined.miss, J.compute_eq, hv0,
      CProg.bind_assoc] at h ⊢
    have hp := (callsCode_safe (X := fun _ => True) (okGet := fun _ _ => True) (okPut := fun _ _ => True)
      (h := J.handle A n) (hJ.safe.statCalls e q) (p := ⟨s, .val s.ty v0⟩) ⟨v0, rfl⟩
      (fun r => (CProg.Good.any _).mono (fun r _ => by cases r <;> trivial)) (fun _ _ => trivial)
        (fun _ _ _ => .inl fun _ _ _ => trivial)).outcome A (fun _ => trivial) c
    have hleft : ∀ p, ((callsCode (J.handle A n) (J.statCalls e q) ⟨s, .val s.ty v0⟩).run A c).1 = .ok p →
        ((callsCode (J.handle A n) (J.statCalls e q) ⟨s, .val s.ty v0⟩).run A c).2 = [] := by
      intro p hr
      have good := (Faith.calls (o := fun m => J.answer A m) answer_mono (fun r => hJ.faithful n r) l
        ⟨s, .val s.ty v0⟩ (CallsOk.left (hx ▸ (hJ.stat e q s _ he hv0).ok))).run (A := A) (CacheValid A J) (fun _ h k => h.get k) (fun _ _ _ h hb => h.insert hb)
        (fun c h => by rw [h.typed.clear]; exact fun x hx => by cases hx) hc
      rw [hx, callsCode_append, CProg.run_bind] at hr ⊢
      cases hr1 : (callsCode (J.handle A n) l ⟨s, .val s.ty v0⟩).run A c with
      | mk o c₁ =>
        rw [hr1] at hr good
        cases o with
        | error x => cases hr
        | ok p₁ =>
          obtain ⟨r, hr2⟩ := hcl p₁
          simp only [callsCode, hr2] at hr ⊢
          change ((CProg.clear (CProg.bind _ _)).run A c₁).2 = []
          change ((CProg.clear (CProg.bind _ _)).run A c₁).1 = _ at hr
          rw [CProg.run_clear, good.2.typed.clear] at hr ⊢
          cases r with
          | error e => cases hr
          | ok p₂ => rfl
    rw [CProg.run_bind] at h ⊢
    cases hr : (callsCode (J.handle A n) (J.statCalls e q) ⟨s, .val s.ty v0⟩).run A c with
    | mk r c1 =>
      rw [hr] at h hp hleft
      cases r with
      | error x => cases h
      | ok p =>
        cases (hleft p rfl : c1 = [])
        obtain ⟨s', b⟩ := p
        obtain ⟨hss, v', hv'⟩ := hp
        change s' = s at hss
        subst hss
        change s'.Val at v'
        change b = .val s'.ty v' at hv'
        subst hv'
        simp only [Joined.remember_eq hs, hcd, if_true, CProg.bind_put, CProg.bind_ret, CProg.run_put,
          readAs_val hs] at h ⊢
        cases h
        rfl

/-- the theorems in the world with a stream that clears, after a query and after none -/
example : (demoWiping.handle demoAddr 1 (.stat 1 demoQ (demoInt 0))).run demoAddr
      (history demoAddr demoWiping [] [.query 1 (.stat 0 demoQ (demoInt 0))]).2 =
    (demoWiping.handle demoAddr 1 (.stat 1 demoQ (demoInt 0))).run demoAddr (history demoAddr demoWiping [] []).2 :=
  C92_forgets demoWiping_honest.right [.query 1 (.stat 0 demoQ (demoInt 0))] [] (by simp [Event.isQuery]) 1 1 demoQ (demoInt 0)
    (fun p => .clear (demoAdd 5 p)) (List.mem_cons_of_mem _ List.mem_cons_self) (fun p => ⟨_, rfl⟩) rfl rfl
    (some ⟨6, -2147483648, 2147483647, 1⟩) rfl (fun h => by cases h) rfl
example : ((demoWiping.handle demoAddr 1 (.stat 1 demoQ (demoInt 0))).run demoAddr
      (history demoAddr demoWiping [] [.query 1 (.stat 0 demoQ (demoInt 0))]).2).2 =
    [(⟨1, demoQ, demoInt 0⟩, .val true (⟨6, -2147483648, 2147483647, 1⟩ : StatInt))] :=
  C92_leaves demoWiping_honest [.query 1 (.stat 0 demoQ (demoInt 0))] (by simp [Event.isQuery]) 1 1 demoQ (demoInt 0)
    [fun p => demoAdd 1 p] (fun p => .clear (demoAdd 5 p)) rfl (fun p => ⟨_, rfl⟩) rfl rfl rfl
    (⟨6, -2147483648, 2147483647, 1⟩ : StatInt) rfl
example : Faithful demoAddr demoWiping 1 (.stat 1 demoQ (demoInt 0))
    ((demoWiping.handle demoAddr 1 (.stat 1 demoQ (demoInt 0))).run demoAddr
      (history demoAddr demoWiping [] [.query 1 (.stat 0 demoQ (demoInt 0))]).2).1 :=
  C92_returns demoWiping_honest.right [.query 1 (.stat 0 demoQ (demoInt 0))] (by simp [Event.isQuery]) 1 _

/-- C92: code that runs after code of a stream starts with what that left: nothing done by the first part is lost -/
theorem C92_sequence {α β : Type} (h : Handler E Q Ent) (p : Prog E Q Ent α) (g : α → Prog E Q Ent β)
    (c : Cache E Q Ent) :
    ((p.bind g).interp h).run A c =
      match (p.interp h).run A c with
      | (.ok a, c') => ((g a).interp h).run A c'
      | (.error x, c') => (.error x, c') := by
  induction p generalizing c with
  | ret a => rfl
  | fail e => rfl
  | ask r k ih =>
    change ((h r).bind fun x => ((k x).bind g).interp h).run A c = match ((h r).bind fun x => (k x).interp h).run A c with
      | (.ok a, c') => ((g a).interp h).run A c'
      | (.error x, c') => (.error x, c')
    rw [CProg.run_bind, CProg.run_bind]
    rcases (h r).run A c with ⟨a | a, c'⟩
    · rfl
    · exact ih a c'
  | attempt r k ih =>
    change ((h r).attempt.bind fun x => ((k x).bind g).interp h).run A c =
      match ((h r).attempt.bind fun x => (k x).interp h).run A c with
      | (.ok a, c') => ((g a).interp h).run A c'
      | (.error x, c') => (.error x, c')
    rw [CProg.run_bind, CProg.run_bind]
    rcases (h r).attempt.run A c with ⟨a | a, c'⟩
    · rfl
    · exact ih a c'
  | clear k ih =>
    simp only [Prog.bind, Prog.interp, CProg.run]
    cases hc : c.clear with
    | error x => simp
    | ok c' => simpa using ih c'
  | store e q p k ih =>
    simp only [Prog.bind, Prog.interp, CProg.cachePair]
    cases p.cloneBuffer with
    | error x => rfl
    | ok b => exact ih _

end BSQ
