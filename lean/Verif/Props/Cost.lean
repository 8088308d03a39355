import Verif.Spec.Cost
import Verif.Props.Contents
import Verif.Props.CacheTrace
/-!
# C118: what queries cost, with and without a cache
-/
namespace BSQ
set_option linter.unusedSectionVars false
variable {E : Env} {Q Ent α β : Type} [DecidableEq Q] [DecidableEq Ent] {A : Addr E} {J : Joined E Q Ent}

theorem lookups_append {K : Type} (l m : List (HOp E K)) : lookups (l ++ m) = lookups l + lookups m := by
  induction l with
  | nil => simp [lookups]
  | cons o l ih => cases o <;> simp +arith [lookups, ih]

theorem storedKeys_append {K : Type} (l m : List (HOp E K)) : storedKeys (l ++ m) = storedKeys l ++ storedKeys m := by
  induction l with
  | nil => rfl
  | cons o l ih => cases o <;> simp [storedKeys, ih]

theorem CProg.accesses_bind (x : CProg E Q Ent α) (f : α → CProg E Q Ent β) (c : Cache E Q Ent) (a : α)
    (h : (x.run A c).1 = .ok a) : (x.bind f).accesses A c = x.accesses A c ++ (f a).accesses A (x.run A c).2 := by
  induction x generalizing c with
  | ret b => cases h; rfl
  | fail e => cases h
  | get k g ih => exact congrArg (_ :: ·) (ih _ _ h)
  | put k b g ih => exact congrArg (_ :: ·) (ih _ h)
  | clear g ih =>
    simp only [CProg.run] at h ⊢
    simp only [CProg.bind, CProg.accesses]
    cases hc : c.clear with
    | ok c' => rw [hc] at h; simp only [hc] at *; exact congrArg (_ :: ·) (ih _ h)
    | error e => rw [hc] at h; cases h

/-- the lookups of code that returns are at most `a`, and the weights of what it stores -/
def Costs (A : Addr E) (w : CacheKey E Q Ent → Nat) (a : Nat) (x : CProg E Q Ent α) : Prop :=
  ∀ c v, (x.run A c).1 = .ok v → lookups (x.accesses A c) ≤ a + ((storedKeys (x.accesses A c)).map w).sum

variable {w : CacheKey E Q Ent → Nat}

theorem Costs.lift (x : Res α) : Costs A w 0 (CProg.lift x : CProg E Q Ent α) := by
  intro c v _
  cases x <;> simp [CProg.lift, CProg.accesses, lookups]

theorem Costs.mono {a a' : Nat} {x : CProg E Q Ent α} (h : Costs A w a x) (ha : a ≤ a') : Costs A w a' x :=
  fun c v hv => (h c v hv).trans (by omega)

theorem Costs.bind {a b : Nat} {x : CProg E Q Ent α} {f : α → CProg E Q Ent β} (hx : Costs A w a x)
    (hf : ∀ y, Costs A w b (f y)) : Costs A w (a + b) (x.bind f) := by
  intro c v hv
  rw [CProg.run_bind] at hv
  cases h : (x.run A c).1 with
  | error e =>
    have : x.run A c = (.error e, (x.run A c).2) := by rw [← h]
    rw [this] at hv
    cases hv
  | ok y =>
    have h' : x.run A c = (.ok y, (x.run A c).2) := by rw [← h]
    rw [h'] at hv
    rw [CProg.accesses_bind x f c y h, lookups_append, storedKeys_append, List.map_append, List.sum_append]
    have h1 := hx c y h
    have h2 := hf y _ v hv
    omega

theorem Costs.interp {h : Handler E Q Ent} (hh : ∀ r, r.IsStat → Costs A w 1 (h r)) {p : Prog E Q Ent α} {b : Nat}
    (hb : p.AtMost b) (ht : p.Trusts Req.IsStat) : Costs A w b (p.interp h) := by
  induction p generalizing b with
  | ret a => exact (Costs.lift (.ok a)).mono (Nat.zero_le _)
  | fail e => exact (Costs.lift (.error e)).mono (Nat.zero_le _)
  | ask r k ih =>
    cases b with
    | zero => exact hb.elim
    | succ b => rw [Nat.add_comm]; exact (hh r ht.1).bind fun x => ih x (hb x) (ht.2 x)
  | attempt r k ih => exact ht.elim
  | clear k ih =>
    intro c v hv
    have hb' : k.AtMost b := by cases b <;> exact hb
    simp only [Prog.interp, CProg.run, CProg.accesses, lookups, storedKeys] at hv ⊢
    cases hc : c.clear with
    | ok c' => rw [hc] at hv; exact ih hb' ht _ v hv
    | error e => rw [hc] at hv; cases hv
  | store e q p k ih =>
    have hb' : k.AtMost b := by cases b <;> exact hb
    unfold Prog.interp CProg.cachePair
    refine (Nat.zero_add b ▸ (Costs.lift _).bind fun buf => ?_)
    intro c v hv
    have := ih hb' ht _ v hv
    simp only [CProg.accesses, lookups, storedKeys, List.map_cons, List.sum_cons]
    omega

theorem Costs.calls {h : Handler E Q Ent} (hh : ∀ r, r.IsStat → Costs A w 1 (h r)) {b : Nat} (l : List (Call E Q Ent))
    (hl : ∀ c ∈ l, ∀ p, (c p).AtMost b ∧ (c p).Trusts Req.IsStat) (p : Pair E) :
    Costs A w (b * l.length) (callsCode h l p) := by
  induction l generalizing p with
  | nil => exact Costs.lift (.ok p)
  | cons c l ih =>
    have hc := hl c (by simp) p
    refine ((Costs.interp hh hc.1 hc.2).bind fun p' => ih (fun c hc => hl c (by simp [hc])) p').mono ?_
    rw [List.length_cons, Nat.mul_succ]
    omega

theorem handle_costs {b : Nat} (hJ : J.Modest b) (hc : J.world.cached = true) (n : Nat) (r : Req E Q Ent) (hr : r.IsStat) :
    Costs A (fun k => b * J.callsFor k) 1 (J.handle A n r) := by
  induction n generalizing r with
  | zero => exact (Costs.lift (.error .fuel)).mono (Nat.zero_le _)
  | succ n ih =>
    cases r with
    | relation _ _ _ _ => exact hr.elim
    | attr _ _ => exact hr.elim
    | stat e q s =>
      change Costs A _ 1 (CProg.bind (CProg.lift _) fun _ => CProg.bind _ fun o => CProg.lift _)
      refine Nat.zero_add 1 ▸ (Costs.lift _).bind fun _ => ?_
      refine Nat.add_zero 1 ▸ Costs.bind ?_ fun o => Costs.lift _
      rw [Joined.queryStatErased_around]
      split
      swap
      · exact (Costs.lift (.ok _)).mono (Nat.zero_le _)
      have hcomp : Costs A (fun k => b * J.callsFor k) (b * (J.statCalls e q).length)
          (J.compute A (J.handle A n) e q s) := by
        rw [J.compute_eq]
        exact Nat.zero_add (b * _) ▸ (Costs.lift _).bind fun v => Costs.calls ih _ (hJ e q) _
      unfold Joined.around Joined.lookup
      rw [if_pos hc]
      have hrem : ∀ p : Pair E, ∀ c v, (((J.remember e q p).bind fun _ => CProg.ret (some p.value) :
            CProg E Q Ent (Option (Buf E))).run A c).1 = .ok v →
          ((J.remember e q p).bind fun _ => CProg.ret (some p.value) : CProg E Q Ent (Option (Buf E))).accesses A c =
            [.insert ⟨e, q, p.stat⟩] := by
        intro p c v hv
        unfold Joined.remember at hv ⊢
        rw [if_pos hc] at hv ⊢
        unfold CProg.cachePair at hv ⊢
        cases hb : p.cloneBuffer with
        | ok b => rfl
        | error x => rw [hb] at hv; cases hv
      intro c v hv
      change lookups (.lookup _ :: CProg.accesses A (CProg.bind (CProg.lift _) _) c) ≤ 1 + ((storedKeys (.lookup _ ::
        CProg.accesses A (CProg.bind (CProg.lift _) _) c)).map _).sum
      change ((CProg.bind (CProg.lift _) _).run A c).1 = _ at hv
      generalize HMap.get (CacheKey.eq A) c ⟨e, q, s⟩ = o at hv ⊢
      cases hd : Defaults.cloned s o with
      | error x => rw [hd] at hv; cases hv
      | ok o' =>
        rw [hd] at hv
        simp only [CProg.lift_ok, CProg.bind_ret] at hv ⊢
        cases o' with
        | some b => simp [CProg.accesses, lookups]
        | none =>
          simp only at hv ⊢
          rw [CProg.run_bind] at hv
          cases h : ((J.compute A (J.handle A n) e q s).run A c).1 with
          | error x =>
            have h' : (J.compute A (J.handle A n) e q s).run A c = (.error x, ((J.compute A (J.handle A n) e q s).run A c).2) := by
              rw [← h]
            rw [h'] at hv
            cases hv
          | ok y =>
            have h' : (J.compute A (J.handle A n) e q s).run A c = (.ok y, ((J.compute A (J.handle A n) e q s).run A c).2) := by
              rw [← h]
            rw [h'] at hv
            rw [CProg.accesses_bind _ _ c y h, hrem y _ v hv]
            have h1 := hcomp c y h
            simp only [lookups, storedKeys, lookups_append, storedKeys_append, List.map_append, List.map_cons, List.map_nil,
              List.sum_append, List.sum_cons, List.sum_nil]
            simp only [Joined.callsFor] at h1 ⊢
            omega

/-! ### a cache never costs lookups -/

theorem CProg.lookups_bind_none (x : CProg E Q Ent α) (f : α → CProg E Q Ent β)
    (hf : ∀ a c, lookups ((f a).accesses A c) = 0) (c : Cache E Q Ent) :
    lookups ((x.bind f).accesses A c) = lookups (x.accesses A c) := by
  induction x generalizing c with
  | ret b => exact hf b c
  | fail e => rfl
  | get k g ih => exact congrArg (· + 1) (ih _ _)
  | put k b g ih => exact ih _
  | clear g ih =>
    simp only [CProg.bind, CProg.accesses, lookups]
    cases c.clear with
    | ok c' => exact ih _
    | error e => rfl

theorem CProg.lookups_lift (x : Res α) (c : Cache E Q Ent) :
    lookups ((CProg.lift x : CProg E Q Ent α).accesses A c) = 0 := by cases x <;> rfl

omit [DecidableEq Q] [DecidableEq Ent] in
theorem CProg.coldLookups_bind_ge (x : CProg E Q Ent α) (f : α → CProg E Q Ent β) :
    x.coldLookups ≤ (x.bind f).coldLookups := by
  induction x with
  | ret b => exact Nat.zero_le _
  | fail e => exact Nat.zero_le _
  | get k g ih => exact Nat.succ_le_succ (ih none)
  | put k b g ih => exact ih
  | clear g ih => exact ih

omit [DecidableEq Q] [DecidableEq Ent] in
theorem CProg.coldLookups_bind (x : CProg E Q Ent α) (f : α → CProg E Q Ent β) {a : α} (h : x.cold = .ok a) :
    (x.bind f).coldLookups = x.coldLookups + (f a).coldLookups := by
  induction x with
  | ret b => cases h; exact (Nat.zero_add _).symm
  | fail e => cases h
  | get k g ih =>
    have := ih none h
    simp only [CProg.bind, CProg.coldLookups, this]
    omega
  | put k b g ih => exact ih h
  | clear g ih => exact ih h

omit [DecidableEq Q] [DecidableEq Ent] in
theorem CProg.coldLookups_attempt (x : CProg E Q Ent α) : x.attempt.coldLookups = x.coldLookups := by
  induction x with
  | ret b => rfl
  | fail e => cases e <;> rfl
  | get k g ih => exact congrArg (· + 1) (ih none)
  | put k b g ih => exact ih
  | clear g ih => exact ih

theorem CProg.lookups_attempt (x : CProg E Q Ent α) (c : Cache E Q Ent) :
    lookups (x.attempt.accesses A c) = lookups (x.accesses A c) := by
  induction x generalizing c with
  | ret b => rfl
  | fail e => cases e <;> rfl
  | get k g ih => exact congrArg (· + 1) (ih _ _)
  | put k b g ih => exact ih _
  | clear g ih =>
    simp only [CProg.attempt, CProg.accesses, lookups]
    cases c.clear with
    | ok c' => exact ih _
    | error e => rfl

/-- Unless the outcome `y` without a cache is to run out of depth, the code has that outcome on every valid cache, and makes
no more lookups than when nothing is found. -/
def Saves (A : Addr E) (J : Joined E Q Ent) (y : Res α) (x : CProg E Q Ent α) : Prop :=
  y ≠ .error .fuel → x.cold = y ∧ ∀ c, CacheValid A J c → (x.run A c).1 = y ∧ CacheValid A J (x.run A c).2 ∧
    lookups (x.accesses A c) ≤ x.coldLookups ∧ x.Fresh A c

theorem Saves.lift (y : Res α) : Saves A J y (CProg.lift y : CProg E Q Ent α) := fun _ =>
  ⟨CProg.cold_lift y, fun c hc => by
    rw [CProg.run_lift]
    exact ⟨rfl, hc, by rw [CProg.lookups_lift]; exact Nat.zero_le _, .lift y c⟩⟩

theorem Saves.bind {y : Res α} {z : α → Res β} {x : CProg E Q Ent α} {f : α → CProg E Q Ent β} (hx : Saves A J y x)
    (hf : ∀ a, y = .ok a → Saves A J (z a) (f a)) : Saves A J (y >>= z) (x.bind f) := by
  intro hne
  obtain ⟨h1, h2⟩ := hx (fun h => hne (by rw [h]; rfl))
  cases y with
  | error e =>
    refine ⟨by rw [CProg.cold_bind, h1]; rfl, fun c hc => ?_⟩
    obtain ⟨h3, h4, h5, hfr⟩ := h2 c hc
    have h' : x.run A c = (.error e, (x.run A c).2) := by rw [← h3]
    have : ∀ (x : CProg E Q Ent α) c e, (x.run A c).1 = .error e →
        (x.bind f).accesses A c = x.accesses A c ∧ (x.bind f).run A c = (.error e, (x.run A c).2) := by
      intro x
      induction x with
      | ret b => intro c e h; cases h
      | fail e' => intro c e h; cases h; exact ⟨rfl, rfl⟩
      | get k g ih => intro c e h; exact ⟨congrArg (_ :: ·) (ih _ _ _ h).1, (ih _ _ _ h).2⟩
      | put k b g ih => intro c e h; exact ⟨congrArg (_ :: ·) (ih _ _ h).1, (ih _ _ h).2⟩
      | clear g ih =>
        intro c e h
        simp only [CProg.bind, CProg.run, CProg.accesses] at h ⊢
        cases hc : c.clear with
        | ok c' => rw [hc] at h; exact ⟨congrArg (_ :: ·) (ih _ _ h).1, (ih _ _ h).2⟩
        | error e' => rw [hc] at h; cases h; exact ⟨rfl, rfl⟩
    obtain ⟨h6, h7⟩ := this x c e h3
    rw [h6, h7]
    exact ⟨rfl, h4, h5.trans (CProg.coldLookups_bind_ge _ _), hfr.bind fun a ha => by rw [h3] at ha; cases ha⟩
  | ok a =>
    obtain ⟨h6, h7⟩ := hf a rfl hne
    refine ⟨by rw [CProg.cold_bind, h1]; exact h6, fun c hc => ?_⟩
    obtain ⟨h3, h4, h5, hfr⟩ := h2 c hc
    have h' : x.run A c = (.ok a, (x.run A c).2) := by rw [← h3]
    obtain ⟨h8, h9, h10, hfr'⟩ := h7 _ h4
    refine ⟨by rw [CProg.run_bind, h']; exact h8, by rw [CProg.run_bind, h']; exact h9, ?_,
      hfr.bind fun a' ha' => by rw [h3] at ha'; cases ha'; exact hfr'⟩
    rw [CProg.accesses_bind x f c a h3, CProg.coldLookups_bind x f h1, lookups_append]
    exact Nat.add_le_add h5 h10

theorem Saves.attempt {y : Res α} {x : CProg E Q Ent α} (hx : Saves A J y x) : Saves A J y.attempt x.attempt := by
  intro hne
  obtain ⟨h1, h2⟩ := hx (fun h => hne (by rw [h]; rfl))
  refine ⟨by rw [CProg.attempt_cold, h1], fun c hc => ?_⟩
  obtain ⟨h3, h4, h5, hfr⟩ := h2 c hc
  rw [hfr.attempt.2, CProg.coldLookups_attempt, CProg.lookups_attempt]
  exact ⟨by rw [h3], h4, h5, hfr.attempt.1⟩

theorem Saves.interp {h : Handler E Q Ent} {o : Oracle E Q Ent} (hh : ∀ r, Saves A J (o r) (h r))
    (p : Prog E Q Ent α) (hp : p.NoStore) : Saves A J (p.eval o) (p.interp h) := by
  induction p with
  | ret a => exact Saves.lift (.ok a)
  | fail e => exact Saves.lift (.error e)
  | ask r k ih => exact (hh r).bind fun x _ => ih x (hp x)
  | attempt r k ih => exact (hh r).attempt.bind fun x _ => ih x (hp x)
  | clear k ih =>
    intro hne
    obtain ⟨h1, h2⟩ := ih hp hne
    refine ⟨h1, fun c hc => ?_⟩
    simp only [Prog.interp, CProg.run, CProg.accesses, hc.typed.clear, lookups, CProg.coldLookups, CProg.Fresh, true_and]
    exact h2 [] fun x hx => by cases hx
  | store e q p k ih => exact hp.elim

theorem Saves.calls {h : Handler E Q Ent} {o : Oracle E Q Ent} (hh : ∀ r, Saves A J (o r) (h r))
    (l : List (Call E Q Ent)) (hl : ∀ c ∈ l, ∀ p, (c p).NoStore) (p : Pair E) :
    Saves A J (runCalls o l p) (callsCode h l p) := by
  induction l generalizing p with
  | nil => exact Saves.lift (.ok p)
  | cons c l ih =>
    exact (Saves.interp hh (c p) (hl c (by simp) p)).bind fun p' _ => ih (fun c hc => hl c (by simp [hc])) p'

theorem Saves.any {h : Handler E Q Ent} {o : Oracle E Q Ent} (hh : ∀ r, Saves A J (o r) (h r))
    (l : List (Prog E Q Ent Bool)) (hl : ∀ c ∈ l, c.NoStore) : Saves A J (anyCalls o l) (anyCode h l) := by
  induction l with
  | nil => exact Saves.lift (.ok false)
  | cons c l ih =>
    refine (Saves.interp hh c (hl c (by simp))).bind fun b _ => ?_
    cases b
    · exact ih fun c hc => hl c (by simp [hc])
    · exact Saves.lift (.ok true)

theorem handle_saves (hJ : J.Safe A) (hn : J.NoStore) (n : Nat) (r : Req E Q Ent) :
    Saves A J (J.answer A n r) (J.handle A n r) := by
  induction n generalizing r with
  | zero => exact Saves.lift (.error .fuel)
  | succ n ih =>
    intro hne
    have hf := (hJ.honest hn).right.faithful (n + 1) r
    refine ⟨(hf.cold fun k b hb => by cases hb).1 hne, fun c hc => ?_⟩
    have hrv := (hJ.honest hn).right.run_valid hc (n + 1) r
    refine ⟨hrv.1.1 hne, hrv.2, ?_, (hJ.freshOn hn (n + 1) r c hc).1⟩
    rw [J.answer_succ] at hne
    cases r with
    | stat e q s =>
      change lookups (CProg.accesses A (CProg.bind (CProg.lift _) fun _ => CProg.bind _ fun o => CProg.lift _) c) ≤
        (CProg.bind (CProg.lift _) fun _ => CProg.bind _ fun o => CProg.lift _).coldLookups
      simp only [Joined.ideal] at hne
      cases hs : validate (E.layout s.ty) with
      | error x => exact Nat.zero_le _
      | ok u =>
        rw [hs] at hne
        simp only [Res.bind_ok, CProg.lift_ok, CProg.bind_ret] at hne ⊢
        refine (CProg.lookups_bind_none _ _ (fun o c => CProg.lookups_lift _ c) c).le.trans (le_trans ?_ (CProg.coldLookups_bind_ge _ _))
        rw [Joined.queryStatErased_around]
        split
        swap
        · exact Nat.zero_le _
        rename_i he
        rw [if_pos he] at hne
        have hcomp : lookups ((J.compute A (J.handle A n) e q s).accesses A c) ≤
            (J.compute A (J.handle A n) e q s).coldLookups := by
          rw [J.compute_eq]
          refine ((Saves.bind (z := fun v => runCalls (J.answer A n) (J.statCalls e q) ⟨s, v⟩) (Saves.lift _)
            fun v _ => Saves.calls ih _ (hn.stat e q) _) ?_).2 c hc |>.2.2.1
          intro h
          refine hne ?_
          cases hv : J.world.startValue A s with
          | error x => rw [hv] at h; cases h; rfl
          | ok v =>
            rw [hv] at h
            simp only [Res.bind_ok] at h ⊢
            rw [h]
            rfl
        have hrem : ∀ (p : Pair E) c, lookups (((J.remember e q p).bind fun _ => CProg.ret (some p.value) :
            CProg E Q Ent (Option (Buf E))).accesses A c) = 0 := by
          intro p c
          unfold Joined.remember CProg.cachePair
          split
          · cases p.cloneBuffer <;> rfl
          · rfl
        have hmiss := (CProg.lookups_bind_none (J.compute A (J.handle A n) e q s) _ hrem c).le.trans
          (hcomp.trans (CProg.coldLookups_bind_ge _ fun p => (J.remember e q p).bind fun _ =>
            (CProg.ret (some p.value) : CProg E Q Ent (Option (Buf E)))))
        unfold Joined.around Joined.lookup
        split
        · change lookups (CProg.accesses A (CProg.bind (CProg.lift _) _) c) + 1 ≤
            (CProg.bind (CProg.lift (.ok none)) _).coldLookups + 1
          refine Nat.succ_le_succ ?_
          cases Defaults.cloned s (HMap.get (CacheKey.eq A) c ⟨e, q, s⟩) with
          | error x => exact Nat.zero_le _
          | ok o =>
            cases o with
            | some b => exact Nat.zero_le _
            | none => exact hmiss
        · exact hmiss
    | relation a b q s =>
      change lookups (CProg.accesses A (CProg.bind (CProg.lift _) fun _ => CProg.bind _ fun o => CProg.lift _) c) ≤
        (CProg.bind (CProg.lift _) fun _ => CProg.bind _ fun o => CProg.lift _).coldLookups
      simp only [Joined.ideal] at hne
      cases hs : validate (E.layout s.ty) with
      | error x => exact Nat.zero_le _
      | ok u =>
        rw [hs] at hne
        simp only [Res.bind_ok, CProg.lift_ok, CProg.bind_ret] at hne ⊢
        refine (CProg.lookups_bind_none _ _ (fun o c => CProg.lookups_lift _ c) c).le.trans (le_trans ?_ (CProg.coldLookups_bind_ge _ _))
        rw [J.queryRelationErased_eq]
        split
        swap
        · exact Nat.zero_le _
        rename_i he
        rw [if_pos he] at hne
        refine ((Saves.bind (z := fun v => runCalls (J.answer A n) (J.relationCalls a b q) ⟨s, v⟩ >>= fun p => .ok (some p.value))
          (Saves.lift _) fun v _ => (Saves.calls ih _ (hn.relation a b q) _).bind fun p _ => Saves.lift (.ok (some p.value))) ?_).2
            c hc |>.2.2.1
        intro h
        refine hne ?_
        cases hv : J.world.startValue A s with
        | error x => rw [hv] at h; cases h; rfl
        | ok v =>
          rw [hv] at h
          simp only [Res.bind_ok] at h ⊢
          cases hr : runCalls (J.answer A n) (J.relationCalls a b q) ⟨s, v⟩ with
          | ok p => rw [hr] at h; cases h
          | error x => rw [hr] at h; cases h; rfl
    | attr e a =>
      change lookups ((J.hasAttributeErased (J.handle A n) e a).accesses A c) ≤
        (J.hasAttributeErased (J.handle A n) e a).coldLookups
      rw [J.hasAttributeErased_eq]
      exact ((Saves.any ih _ (hn.attr e a) hne).2 c hc).2.2.1

/-! ### the claims -/

/-- C118: a stat query that returns makes at most one lookup, and for each result it computes, as many as its streams may
ask questions -/
theorem C118_lookups {b : Nat} (hJ : J.Modest b) (hc : J.world.cached = true) (n : Nat) (e : Ent) (q : QualifierQuery Q)
    (s : StatInst E) (c : Cache E Q Ent) (v : Option s.Val) (hv : ((J.handle A n (.stat e q s)).run A c).1 = .ok v) :
    lookups ((J.handle A n (.stat e q s)).accesses A c) ≤
      1 + ((storedKeys ((J.handle A n (.stat e q s)).accesses A c)).map fun k => b * J.callsFor k).sum :=
  handle_costs hJ hc n (.stat e q s) trivial c v hv

/-- C118: with a cache that holds right results a query never makes more lookups than when nothing is cached -/
theorem C118_never_more (hJ : J.Safe A) (hn : J.NoStore) (n : Nat) (r : Req E Q Ent) (hr : J.answer A n r ≠ .error .fuel)
    (evs : List (Event E Q Ent)) (hq : ∀ ev ∈ evs, ev.isQuery = true ∨ ev = .clear) :
    lookups ((J.handle A n r).accesses A (history A J [] evs).2) ≤ (J.handle A n r).coldLookups := by
  refine ((handle_saves hJ hn n r hr).2 _ ?_).2.2.1
  have : ∀ (evs : List (Event E Q Ent)) c, CacheValid A J c → (∀ ev ∈ evs, ev.isQuery = true ∨ ev = .clear) →
      CacheValid A J (history A J c evs).2 := by
    intro evs
    induction evs with
    | nil => exact fun c hc _ => hc
    | cons ev evs ih =>
      intro c hc hq
      cases ev with
      | query n r =>
        exact ih _ ((hJ.honest hn).right.run_valid hc n r).2 fun ev hev => hq ev (by simp [hev])
      | clear =>
        simp only [history, hc.typed.clear]
        exact ih [] (fun x hx => by cases hx) fun ev hev => hq ev (by simp [hev])
      | change J' =>
        rcases hq (.change J') (by simp) with h | h
        · simp [Event.isQuery] at h
        · cases h
  exact this evs [] (fun x hx => by cases hx) hq

/-- code that does not clear the cache stores what `Sees` says -/
theorem Sees.stored {C : CacheKey E Q Ent → CacheKey E Q Ent → Prop} {L S : CacheKey E Q Ent → Prop}
    {P : Res α → (CacheKey E Q Ent → Prop) → Prop} {P' : Res α → Prop} {x : CProg E Q Ent α}
    (hx : Sees (ValidGet A J) C L P S x) (hg : CProg.Good (ValidGet A J) (ValidEntry A J) P' x) (hn : x.NoClear)
    {c : Cache E Q Ent} (hc : CacheValid A J c) : ∀ k ∈ storedKeys (x.accesses A c), L k := by
  induction x generalizing c S with
  | ret a => intro k hk; cases hk
  | fail e => intro k hk; cases hk
  | get j f ih => exact ih _ (hx _ (hc.get j)) (hg _ (hc.get j)) (hn _) hc
  | put j b f ih =>
    intro k hk
    simp only [CProg.accesses, storedKeys, List.mem_cons] at hk
    rcases hk with rfl | hk
    · exact hx.1
    · exact ih hx.2.2 hg.2 hn (hc.insert hg.1) k hk
  | clear f ih => exact hn.elim

theorem accesses_noClear {x : CProg E Q Ent α} (hn : x.NoClear) (c : Cache E Q Ent) :
    HOp.clear ∉ x.accesses A c := by
  induction x generalizing c with
  | ret a => simp [CProg.accesses]
  | fail e => simp [CProg.accesses]
  | get j f ih => simp [CProg.accesses, ih _ (hn _)]
  | put j b f ih => simp [CProg.accesses, ih hn]
  | clear f ih => exact hn.elim

theorem NoneTwice.nodup {K : Type} {ks : List K} {os : List (HOp E K)} (h : NoneTwice ks os)
    (hn : HOp.clear ∉ os) : (storedKeys os).Nodup ∧ ∀ k ∈ storedKeys os, k ∉ ks := by
  induction os generalizing ks with
  | nil => exact ⟨List.nodup_nil, fun k hk => by cases hk⟩
  | cons o os ih =>
    have hn' : HOp.clear ∉ os := fun h => hn (by simp [h])
    cases o with
    | insert k =>
      obtain ⟨h1, h2⟩ := ih h.2 hn'
      refine ⟨List.nodup_cons.2 ⟨fun hk => h2 k hk (by simp), h1⟩, fun k' hk' => ?_⟩
      rcases List.mem_cons.1 hk' with rfl | hk'
      · exact h.1
      · exact fun hks => h2 k' hk' (by simp [hks])
    | clear => exact absurd (by simp) hn
    | patch k f => exact ih h hn'
    | lookup k => exact ih h hn'
    | get k => exact ih h hn'
    | getDyn k => exact ih h hn'

/-- C118: queries made one after another, starting with an empty cache, compute no result twice, and only results that
one of them involves -/
theorem C118_distinct (hJ : J.Safe A) (hq : J.Quiet) (hc : J.world.cached = true) (qs : List (Nat × Req E Q Ent)) :
    let os := historyAccesses A J [] (qs.map fun x => .query x.1 x.2)
    (storedKeys os).Nodup ∧ ∀ k ∈ storedKeys os, ∃ x ∈ qs, J.Needs A (.stat k.entity k.query k.stat) x.2 := by
  intro os
  have hn := hq.noStore
  have h1 : ∀ (qs : List (Nat × Req E Q Ent)) c, CacheValid A J c →
      HOp.clear ∉ historyAccesses A J c (qs.map fun x => .query x.1 x.2) ∧
      ∀ k ∈ storedKeys (historyAccesses A J c (qs.map fun x => .query x.1 x.2)),
        ∃ x ∈ qs, J.Needs A (.stat k.entity k.query k.stat) x.2 := by
    intro qs
    induction qs with
    | nil => exact fun c _ => ⟨by simp [historyAccesses], fun k hk => by cases hk⟩
    | cons x qs ih =>
      intro c hcv
      obtain ⟨h2, h3⟩ := ih _ ((hJ.honest hn).right.run_valid hcv x.1 x.2).2
      simp only [List.map_cons, historyAccesses, List.mem_append, not_or, storedKeys_append]
      refine ⟨⟨accesses_noClear (hq.noClear A x.1 x.2) c, h2⟩, fun k hk => ?_⟩
      rcases hk with hk | hk
      · exact ⟨x, by simp, (handle_sees hJ hn hc x.1 x.2 fun _ => False).stored ((hJ.honest hn).right.faithful x.1 x.2)
          (hq.noClear A x.1 x.2) hcv k hk⟩
      · obtain ⟨y, hy, h⟩ := h3 k hk
        exact ⟨y, by simp [hy], h⟩
  obtain ⟨h2, h3⟩ := h1 qs [] fun x hx => by cases hx
  refine ⟨(NoneTwice.nodup (C93_once J _ hJ hn ?_ ?_ ?_) h2).1, h3⟩
  · intro J' hJ'
    simp at hJ'
  · intro J' hJ'
    simp at hJ'
  · clear h1 h2 h3 os
    induction qs with
    | nil => trivial
    | cons x qs ih => exact ⟨rfl, ih⟩

theorem sum_map_le_of_sublist {K : Type} (b : Nat) (f : K → Nat) {l l' : List K} (h : l.Sublist l') :
    (l.map fun k => b * f k).sum ≤ b * (l'.map f).sum := by
  induction h with
  | slnil => exact Nat.zero_le _
  | cons k h ih => simp only [List.map_cons, List.sum_cons, Nat.mul_add]; omega
  | cons_cons k h ih => simp only [List.map_cons, List.sum_cons, Nat.mul_add]; omega

/-- C118: so the lookups of stat queries that return are bounded by their number and by the calls of streams that the
different results they involve need, each counted once -/
theorem C118_bound {b : Nat} (hb : J.Modest b) (hJ : J.Safe A) (hq : J.Quiet) (hc : J.world.cached = true)
    (qs : List (Nat × Req E Q Ent)) (hs : ∀ x ∈ qs, x.2.IsStat)
    (hr : ∀ o ∈ (history A J [] (qs.map fun x => .query x.1 x.2)).1, ∃ v, o.res = .ok v)
    (K : List (CacheKey E Q Ent))
    (hK : ∀ k, (∃ x ∈ qs, J.Needs A (.stat k.entity k.query k.stat) x.2) → k ∈ K) :
    lookups (historyAccesses A J [] (qs.map fun x => .query x.1 x.2)) ≤
      qs.length + b * (K.map J.callsFor).sum := by
  obtain ⟨h1, h2⟩ := C118_distinct hJ hq hc qs
  have h3 : ∀ (qs : List (Nat × Req E Q Ent)) c, (∀ x ∈ qs, x.2.IsStat) →
      (∀ o ∈ (history A J c (qs.map fun x => .query x.1 x.2)).1, ∃ v, o.res = .ok v) →
      lookups (historyAccesses A J c (qs.map fun x => .query x.1 x.2)) ≤ qs.length +
        ((storedKeys (historyAccesses A J c (qs.map fun x => .query x.1 x.2))).map fun k => b * J.callsFor k).sum := by
    intro qs
    induction qs with
    | nil => exact fun c _ _ => Nat.zero_le _
    | cons x qs ih =>
      intro c hs hr
      have h4 := ih ((J.handle A x.1 x.2).run A c).2 (fun y hy => hs y (by simp [hy]))
        fun o ho => hr o (by simp [history, ho])
      obtain ⟨v, hv⟩ := hr ⟨J, x.1, x.2, ((J.handle A x.1 x.2).run A c).1⟩ (by simp [history])
      have h5 := handle_costs hb hc x.1 x.2 (hs x (by simp)) c v hv
      simp only [List.map_cons, historyAccesses, lookups_append, storedKeys_append, List.map_append, List.sum_append,
        List.length_cons] at *
      omega
  refine (h3 qs [] hs hr).trans (Nat.add_le_add_left ?_ _)
  obtain ⟨l, hl, hl'⟩ := List.subperm_of_subset h1 fun k hk => hK k (h2 k hk)
  rw [← (hl.map _).sum_eq]
  exact sum_map_le_of_sublist b J.callsFor hl'


/-! ### the difference a cache makes -/

/-- the stream of entity `e + 1` asks twice for the stat of entity `e` -/
def demoLadder : CStream demo (BitVec 8) Nat where
  Item := Nat
  query e := some e
  stream e _ q p := match e with
    | 0 => .ret p
    | e + 1 => .ask (.stat e q p.stat) fun _ => .ask (.stat e q p.stat) fun _ => .ret p

def demoLadders : Joined demo (BitVec 8) Nat :=
  ({ demoWorld with relations := none, isStat := fun _ => true }).withComponent demoLadder

theorem demoLadders_safe : demoLadders.Safe demoAddr where
  globals g hg e q := by cases hg
  streams st hst e it _ this q := by
    cases List.mem_singleton.1 hst
    intro p hp
    cases this with
    | zero => exact ⟨rfl, hp⟩
    | succ e => exact fun _ _ => ⟨rfl, hp⟩
  relations st hst a b q := by cases hst
  attrs st hst e it _ this a := by
    cases List.mem_singleton.1 hst
    intro h; cases h
  defaults d hd := by cases hd

theorem demoLadders_quiet : demoLadders.Quiet := by
  refine .of_streams (fun g hg => ?_) (fun st hst e it _ this q => ?_) (fun st hst => ?_)
    (fun st hst e it _ this a => ?_)
  · cases hg
  · cases List.mem_singleton.1 hst
    intro p
    cases this with
    | zero => trivial
    | succ e => exact fun _ _ => trivial
  · cases hst
  · cases List.mem_singleton.1 hst; trivial

theorem demoLadders_modest : demoLadders.Modest 2 := by
  intro e q c hc p
  cases List.mem_singleton.1 hc
  cases e with
  | zero => exact ⟨trivial, trivial⟩
  | succ e => exact ⟨fun _ _ => trivial, trivial, fun _ => ⟨trivial, fun _ => trivial⟩⟩

/-- the request -/
abbrev demoRung (e : Nat) : Req demo (BitVec 8) Nat := .stat e demoQ (demoInt 0)

/-- its result -/
abbrev demoRungValue : StatInt := ⟨0, -2147483648, 2147483647, 1⟩

theorem demoLadders_cold (e n : Nat) (hn : e < n) :
    (demoLadders.handle demoAddr n (demoRung e)).cold = (.ok (some demoRungValue) : Res (Option StatInt)) ∧
    (demoLadders.handle demoAddr n (demoRung e)).coldLookups = 2 ^ (e + 1) - 1 := by
  induction e generalizing n with
  | zero =>
    obtain ⟨n, rfl⟩ : ∃ m, n = m + 1 := ⟨n - 1, by omega⟩
    exact ⟨rfl, rfl⟩
  | succ e ih =>
    obtain ⟨n, rfl⟩ : ∃ m, n = m + 1 := ⟨n - 1, by omega⟩
    obtain ⟨h1, h2⟩ := ih n (by omega)
    suffices h : ∀ x : CProg demo (BitVec 8) Nat (Option StatInt), x = demoLadders.handle demoAddr (n + 1) (demoRung (e + 1)) →
        x.cold = .ok (some demoRungValue) ∧ x.coldLookups = 2 ^ (e + 1 + 1) - 1 from h _ rfl
    intro x hx
    have hx : x = ((CProg.lift (validate (demo.layout true))).bind fun _ =>
        (demoLadders.queryStatErased demoAddr (demoLadders.handle demoAddr n) (e + 1) demoQ (demoInt 0)).bind fun o =>
          CProg.lift (StatMap.readAs (demoInt 0) o) : CProg demo (BitVec 8) Nat (Option StatInt)) := hx
    have hs : Storable (demo.layout true) := by decide
    have he : demoLadders.world.isStat (e + 1) = true := rfl
    have hc : demoLadders.world.cached = true := rfl
    have hm : demoLadders.miss demoAddr (demoLadders.handle demoAddr n) (e + 1) demoQ (demoInt 0) =
        ((demoLadders.handle demoAddr n (demoRung e)).bind fun _ => (demoLadders.handle demoAddr n (demoRung e)).bind fun _ =>
          .put ⟨e + 1, demoQ, demoInt 0⟩ (.val true demoRungValue) (.ret (some (.val true demoRungValue)))) := by
      unfold Joined.miss
      simp only [CProg.bind_eq]
      rw [Joined.compute_eq]
      change CProg.bind (CProg.bind (CProg.bind (demoLadders.handle demoAddr n (demoRung e)) fun _ =>
        CProg.bind (demoLadders.handle demoAddr n (demoRung e)) _) _) _ = _
      simp only [CProg.bind_assoc]
      rfl
    subst hx
    simp only [validate_eq, hs, if_true, Joined.queryStatErased, he, CProg.bind_eq, Joined.lookup, hc, CProg.bind_get,
      CProg.cold_get, CProg.coldLookups, Defaults.cloned, CProg.lift_ok, CProg.bind_ret, hm, CProg.bind_assoc]
    refine ⟨?_, ?_⟩
    · simp only [CProg.cold_bind, h1]
      rfl
    · rw [CProg.coldLookups_bind _ _ h1, CProg.coldLookups_bind _ _ h1, h2, pow_succ 2 (e + 1)]
      have := Nat.one_le_two_pow (n := e + 1)
      simp only [CProg.bind, CProg.lift, CProg.coldLookups]
      change _ + (_ + 0) + 1 = _
      omega

theorem demoLadders_answer (e n : Nat) (hn : e < n) :
    demoLadders.answer demoAddr n (demoRung e) = (.ok (some demoRungValue) : Res (Option StatInt)) := by
  induction e generalizing n with
  | zero =>
    obtain ⟨n, rfl⟩ : ∃ m, n = m + 1 := ⟨n - 1, by omega⟩
    rfl
  | succ e ih =>
    obtain ⟨n, rfl⟩ : ∃ m, n = m + 1 := ⟨n - 1, by omega⟩
    have h := ih n (by omega)
    rw [Joined.answer_succ]
    change (((demoLadders.answer demoAddr n (demoRung e) >>= fun _ => demoLadders.answer demoAddr n (demoRung e) >>= fun _ =>
      .ok _) >>= fun p => _) >>= fun o => _ : Res (Option StatInt)) = _
    rw [h]
    rfl

theorem demoLadders_needs {r : Req demo (BitVec 8) Nat} {e : Nat} (h : demoLadders.Needs demoAddr r (demoRung e)) :
    ∃ i ≤ e, r = demoRung i := by
  induction h using Relation.ReflTransGen.head_induction_on with
  | refl => exact ⟨e, le_rfl, rfl⟩
  | head h1 _ ih =>
    obtain ⟨i, hi, rfl⟩ := ih
    obtain ⟨n, _, _, v, _, h⟩ := h1
    rcases h with h | ⟨p', _, h⟩
    · cases i with
      | zero => exact h.elim
      | succ i =>
        rcases h with rfl | ⟨x, _, rfl | ⟨y, _, h⟩⟩
        · exact ⟨i, by omega, rfl⟩
        · exact ⟨i, by omega, rfl⟩
        · exact h.elim
    · exact h.elim

/-- C118: a case where the number of nested queries is exponential in how deep they nest if nothing is cached, and linear
with the cache -/
theorem C118_exponential : ∃ J : Joined demo (BitVec 8) Nat, J.Safe demoAddr ∧ J.Quiet ∧ J.Modest 2 ∧
    J.world.cached = true ∧ ∀ e n, e < n →
      ((J.handle demoAddr n (demoRung e)).run demoAddr []).1 = (.ok (some demoRungValue) : Res (Option StatInt)) ∧
      (J.handle demoAddr n (demoRung e)).coldLookups = 2 ^ (e + 1) - 1 ∧
      lookups ((J.handle demoAddr n (demoRung e)).accesses demoAddr []) ≤ 2 * e + 3 := by
  refine ⟨demoLadders, demoLadders_safe, demoLadders_quiet, demoLadders_modest, rfl, fun e n hn => ?_⟩
  obtain ⟨h1, h2⟩ := demoLadders_cold e n hn
  have hrun : ((demoLadders.handle demoAddr n (demoRung e)).run demoAddr []).1 =
      (.ok (some demoRungValue) : Res (Option StatInt)) := by
    rw [← demoLadders_answer e n hn]
    exact ((handle_saves demoLadders_safe demoLadders_quiet.noStore n (demoRung e)
      (by rw [demoLadders_answer e n hn]; intro h; cases h)).2 [] fun x hx => by cases hx).1
  refine ⟨hrun, h2, ?_⟩
  have := C118_bound demoLadders_modest demoLadders_safe demoLadders_quiet rfl [(n, demoRung e)]
    (fun x hx => by cases List.mem_singleton.1 hx; trivial)
    (fun o ho => by cases List.mem_singleton.1 ho; exact ⟨_, hrun⟩)
    ((List.range (e + 1)).map fun i => ⟨i, demoQ, demoInt 0⟩) fun k ⟨x, hx, hk⟩ => by
      cases List.mem_singleton.1 hx
      obtain ⟨i, hi, h⟩ := demoLadders_needs hk
      obtain ⟨e', q', s'⟩ := k
      cases h
      exact List.mem_map.2 ⟨e', List.mem_range.2 (Nat.lt_succ_of_le hi), rfl⟩
  have h3 : ((List.range (e + 1)).map fun i => (⟨i, demoQ, demoInt 0⟩ : CacheKey demo (BitVec 8) Nat)).map
      demoLadders.callsFor = List.replicate (e + 1) 1 := by
    rw [List.map_map, List.eq_replicate_iff]
    refine ⟨by simp, fun x hx => ?_⟩
    obtain ⟨i, _, rfl⟩ := List.mem_map.1 hx
    rfl
  rw [h3] at this
  simp only [List.map_cons, List.map_nil, historyAccesses, List.append_nil, List.length_singleton, List.sum_replicate] at this
  simp at this
  omega

/-! ### concrete cases -/

example : (demoLadders.handle demoAddr 11 (demoRung 10)).coldLookups = 2047 := (demoLadders_cold 10 11 (by decide)).2
example : lookups ((demoLadders.handle demoAddr 4 (demoRung 3)).accesses demoAddr []) = 7 := by decide +kernel
example : (demoLadders.handle demoAddr 4 (demoRung 3)).coldLookups = 15 := by decide +kernel
example : storedKeys ((demoLadders.handle demoAddr 4 (demoRung 3)).accesses demoAddr []) =
    [⟨0, demoQ, demoInt 0⟩, ⟨1, demoQ, demoInt 0⟩, ⟨2, demoQ, demoInt 0⟩, ⟨3, demoQ, demoInt 0⟩] := by decide +kernel

/-- other queries first -/
example : lookups ((demoLadders.handle demoAddr 11 (demoRung 10)).accesses demoAddr
    (history demoAddr demoLadders [] [.query 3 (demoRung 2), .clear, .query 6 (demoRung 5)]).2) ≤ 2047 := by
  refine (C118_never_more demoLadders_safe demoLadders_quiet.noStore 11 (demoRung 10)
    (by rw [demoLadders_answer 10 11 (by decide)]; intro h; cases h) _ ?_).trans
      (demoLadders_cold 10 11 (by decide)).2.le
  intro ev h
  simp only [List.mem_cons, List.not_mem_nil, or_false] at h
  rcases h with rfl | rfl | rfl
  · exact .inl rfl
  · exact .inr rfl
  · exact .inl rfl

example : lookups ((demoLadders.handle demoAddr 4 (demoRung 3)).accesses demoAddr []) ≤ 1 +
    ((storedKeys ((demoLadders.handle demoAddr 4 (demoRung 3)).accesses demoAddr [])).map fun k =>
      2 * demoLadders.callsFor k).sum :=
  C118_lookups demoLadders_modest rfl 4 3 demoQ (demoInt 0) [] (some demoRungValue) rfl

example : (storedKeys (historyAccesses demoAddr demoLadders []
    ([(6, demoRung 5), (3, demoRung 2), (9, demoRung 8)].map fun x => .query x.1 x.2))).Nodup :=
  (C118_distinct demoLadders_safe demoLadders_quiet rfl _).1

end BSQ
