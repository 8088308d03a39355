import Verif.Spec.Auras
import Verif.Proofs.Answer
import Verif.Props.OpArms
import Verif.Props.Cache
/-!
# C144: the auras of tests/distance.rs in any world
-/
namespace BSQ.Auras

theorem fit_ok {x : Int} (h : InI32 x) : i32.fit x = .ok x := by
  unfold NumTy.fit
  rw [if_pos]
  exact h

theorem fit_panic {x : Int} (h : ¬ InI32 x) : i32.fit x = .error .panic := by
  unfold NumTy.fit
  rw [if_neg]
  · rfl
  · exact h

theorem abs_natAbs (x : Int) : ((x.natAbs : Nat) : Int) = |x| := by simp

theorem distance_ok {a b : Int × Int} (h : manhattan a b ≤ 2147483647) : distance a b = .ok (manhattan a b) := by
  unfold manhattan at *
  have h1 := abs_nonneg (a.1 - b.1)
  have h2 := abs_nonneg (a.2 - b.2)
  have h3 := neg_abs_le (a.1 - b.1)
  have h4 := le_abs_self (a.1 - b.1)
  have h5 := neg_abs_le (a.2 - b.2)
  have h6 := le_abs_self (a.2 - b.2)
  unfold distance NumTy.sub NumTy.add
  rw [fit_ok ⟨by omega, by omega⟩]
  simp only [bind, Except.bind, abs_natAbs]
  rw [fit_ok ⟨by omega, by omega⟩, fit_ok ⟨by omega, by omega⟩]
  simp only
  rw [fit_ok ⟨by omega, by omega⟩]
  exact fit_ok ⟨by omega, by omega⟩

theorem distance_panic {a b : Int × Int} (h : ¬ manhattan a b ≤ 2147483647) : distance a b = .error .panic := by
  unfold manhattan at *
  have h1 := abs_nonneg (a.1 - b.1)
  have h2 := abs_nonneg (a.2 - b.2)
  unfold distance NumTy.sub NumTy.add
  by_cases c1 : InI32 (a.1 - b.1)
  · rw [fit_ok c1]
    simp only [bind, Except.bind, abs_natAbs]
    by_cases c2 : InI32 |a.1 - b.1|
    · rw [fit_ok c2]
      by_cases c3 : InI32 (a.2 - b.2)
      · rw [fit_ok c3]
        simp only
        by_cases c4 : InI32 |a.2 - b.2|
        · rw [fit_ok c4]
          exact fit_panic fun c => h c.2
        · rw [fit_panic c4]
      · rw [fit_panic c3]
    · rw [fit_panic c2]
  · rw [fit_panic c1]
    rfl

theorem bind_eval {α β : Type} (p : P α) (f : α → P β) (o : Oracle prog Bool Nat) :
    (p.bind f).eval o = p.eval o >>= fun a => (f a).eval o := by
  induction p with
  | ret a => rfl
  | fail e => rfl
  | ask r k ih =>
    simp only [Prog.bind, Prog.eval, ih]
    cases o r <;> rfl
  | attempt r k ih =>
    simp only [Prog.bind, Prog.eval, ih]
    rcases o r with e | a
    · cases e <;> rfl
    · rfl
  | clear k ih => simpa only [Prog.bind, Prog.eval] using ih
  | store e q p k ih =>
    simp only [Prog.bind, Prog.eval, ih]
    cases p.cloneBuffer <;> rfl

variable (A : Addr prog)

/-- adding terms one by one -/
def total {X : Type} (term : X → Res Int) : Int → List X → Res Int
  | a, [] => .ok a
  | a, x :: xs => do
    let d ← term x
    let a' ← i32.add a d
    total term a' xs

theorem total_ok {X : Type} {term : X → Res Int} {xs : List X} {ds : List Int}
    (h : List.Forall₂ (fun x d => term x = .ok d) xs ds) :
    ∀ a, (∀ l, l <+: ds → InI32 (a + l.sum)) → total term a xs = .ok (a + ds.sum) := by
  induction h with
  | nil => intro a _; simp [total]
  | @cons x d xs ds hx _ ih =>
    intro a hr
    have h1 : InI32 (a + d) := by simpa using hr [d] ⟨ds, rfl⟩
    have := ih (a + d) fun l hl => by
      have := hr (d :: l) (by simpa using hl)
      rwa [List.sum_cons, ← Int.add_assoc] at this
    simp only [total, hx, bind, Except.bind, NumTy.add, fit_ok h1, this, List.sum_cons, Int.add_assoc]

theorem total_panic {X : Type} {term : X → Res Int} (ht : ∀ x e, term x = .error e → e = .panic) (xs : List X) :
    ∀ a, InI32 a → (¬ ∃ ds, List.Forall₂ (fun x d => term x = .ok d) xs ds ∧ ∀ l, l <+: ds → InI32 (a + l.sum)) →
      total term a xs = .error .panic := by
  induction xs with
  | nil =>
    intro a ha h
    exact absurd ⟨[], .nil, fun l hl => by rw [List.prefix_nil.1 hl]; simpa using ha⟩ h
  | cons x xs ih =>
    intro a ha h
    cases hx : term x with
    | error e => rw [ht x e hx] at hx; simp [total, hx, bind, Except.bind]
    | ok d =>
      simp only [total, hx, bind, Except.bind, NumTy.add]
      by_cases h1 : InI32 (a + d)
      · rw [fit_ok h1]
        refine ih (a + d) h1 ?_
        rintro ⟨ds, h2, h3⟩
        refine h ⟨d :: ds, .cons hx h2, fun l hl => ?_⟩
        cases l with
        | nil => simpa using ha
        | cons y l =>
          obtain ⟨rfl, hl'⟩ := List.cons_prefix_cons.1 hl
          have := h3 l hl'
          rwa [Int.add_assoc, ← List.sum_cons] at this
      · rw [fit_panic h1]

/-- the pair a stream gets -/
abbrev effect (i : Nat) (v : StatInt) : Pair prog := ⟨⟨.effects, i⟩, .val (E := prog) Kind.effects v⟩

theorem runCalls_total {X : Type} (o : Oracle prog Bool Nat) (i : Nat) (call : X → Call prog Bool Nat) (term : X → Res Int)
    (hc : ∀ x v, (call x (effect i v)).eval o = term x >>= fun d => i32.add v.addend d >>= fun a =>
      .ok (effect i { v with addend := a })) (xs : List X) (v : StatInt) :
    runCalls o (xs.map call) (effect i v) = total term v.addend xs >>= fun a => .ok (effect i { v with addend := a }) := by
  induction xs generalizing v with
  | nil => rfl
  | cons x xs ih =>
    simp only [List.map_cons, runCalls, hc, total]
    cases term x with
    | error e => rfl
    | ok d =>
      simp only [bind, Except.bind]
      cases i32.add v.addend d with
      | error e => rfl
      | ok a => exact ih _

theorem runCalls_skip (o : Oracle prog Bool Nat) (cs : List (Call prog Bool Nat)) (p : Pair prog)
    (h : ∀ c ∈ cs, (c p).eval o = .ok p) : runCalls o cs p = .ok p := by
  induction cs with
  | nil => rfl
  | cons c cs ih =>
    rw [runCalls, h c List.mem_cons_self]
    exact ih fun c hc => h c (List.mem_cons_of_mem _ hc)

theorem runCalls_app (o : Oracle prog Bool Nat) (cs ds : List (Call prog Bool Nat)) (p : Pair prog) :
    runCalls o (cs ++ ds) p = runCalls o cs p >>= runCalls o ds := by
  induction cs generalizing p with
  | nil => rfl
  | cons c cs ih =>
    simp only [List.cons_append, runCalls]
    cases (c p).eval o with
    | error e => rfl
    | ok p' => exact ih p'

theorem onStat_eval (o : Oracle prog Bool Nat) (s : StatInst prog) (v : s.Val) {T : Kind} (other : prog.Sel T)
    (f : prog.El (prog.valTy T) → P (prog.El (prog.valTy T))) :
    (onStat A ⟨s, .val s.ty v⟩ other f).eval o =
      if h : s = prog.asEntry other then
        (f (by subst h; exact v)).eval o >>= fun v' => .ok ⟨s, .val (E := prog) (prog.valTy T) v'⟩
      else .ok ⟨s, .val s.ty v⟩ := by
  have hT : Storable (prog.statLayout T) := by constructor <;> simp
  by_cases h : s = prog.asEntry other
  · subst h
    have := (C36_isThenCast_partial A other hT).1 v
    unfold onStat
    unfold Pair.typed at this
    rw [this, bind_eval, OpArm.eval_lift]
    simp only [dif_pos, bind, Except.bind]
    rw [bind_eval]
    rfl
  · have := (C36_isThenCast_partial A other hT).2 s v h
    unfold onStat
    unfold Pair.typed at this
    rw [this, bind_eval, OpArm.eval_lift, dif_neg h]
    rfl

theorem ideal_relation (s : Scene) (o : Oracle prog Bool Nat) (a b : Nat) (q : QualifierQuery Bool) (k : Kind) :
    (querier A s).ideal A o (.relation a b q ⟨k, 0⟩) =
      if s.isStat a && s.isStat b then
        runCalls o ((allegiance A s).relationCalls a b q ++ (position A s).relationCalls a b q)
          ⟨⟨k, 0⟩, .val (E := prog) k (sv k).default⟩ >>= fun p => p.value.read (E := prog) k >>= fun x => .ok (some x)
      else .ok none := by
  simp only [Joined.ideal, Joined.relationCalls, querier, world, World.withRelation, Joined.withRelation,
    Joined.withChildren, Streams.leaves, Option.getD_none, List.map_nil, List.nil_append, List.cons_append,
    List.flatMap_cons, List.flatMap_nil, List.append_nil, World.startValue, World.registered]
  cases k <;> rfl

/-- the call for an aura of one kind -/
def allegCall (s : Scene) (e : Nat) (q : QualifierQuery Bool) (it : Int × Nat) : Call prog Bool Nat :=
  (allegianceAura A s).stream e it q

/-- the call for an aura of the other kind -/
def distCall (s : Scene) (e : Nat) (q : QualifierQuery Bool) (it : Nat) : Call prog Bool Nat :=
  (distanceAura A s).stream e it q

theorem ideal_stat (s : Scene) (o : Oracle prog Bool Nat) (e : Nat) (q : QualifierQuery Bool) (i : Nat) :
    (querier A s).ideal A o (.stat e q ⟨.effects, i⟩) =
      if s.isStat e then
        runCalls o ((allegiance A s).calls e q [e] ++ (position A s).calls e q [e] ++
          ((s.allegAuras e).map (allegCall A s e q) ++ (s.distAuras e).map (distCall A s e q)))
          (effect i (plain 0)) >>= fun p => p.value.read (E := prog) Kind.effects >>= fun x => .ok (some x)
      else .ok none := by
  simp only [Joined.ideal, Joined.statCalls, querier, world, World.withRelation, Joined.withRelation,
    Joined.withChildren, Streams.leaves, Option.getD_none, List.map_nil, List.nil_append, List.cons_append,
    List.flatMap_cons, List.flatMap_nil, List.append_nil, World.startValue, World.registered]
  rfl

/-- what the relation streams say about the distance -/
theorem answer_distance (s : Scene) (n a b : Nat) (q : QualifierQuery Bool) :
    (querier A s).answer A (n + 1) (.relation a b q ⟨.distance, 0⟩) =
      if s.isStat a && s.isStat b then
        match s.pos a, s.pos b with
        | some x, some y => distance x y >>= fun d => .ok (some (.found d))
        | _, _ => .ok (some .notFound)
      else .ok none := by
  rw [Joined.answer_succ, ideal_relation]
  congr 1
  have hp : runCalls ((querier A s).answer A n) ((position A s).relationCalls a b q)
      ⟨⟨.distance, 0⟩, .val (E := prog) Kind.distance (.notFound : StatOnce Int)⟩ =
      (match s.pos a, s.pos b with
        | some x, some y => distance x y >>= fun d => .ok (.found d)
        | _, _ => .ok (.notFound : StatOnce Int)) >>= fun v =>
      .ok ⟨⟨.distance, 0⟩, .val (E := prog) Kind.distance v⟩ := by
    simp only [CStream.relationCalls, position]
    cases s.pos a with
    | none => rfl
    | some x =>
      cases s.pos b with
      | none => rfl
      | some y =>
        simp only [runCalls]
        have := (onStat_eval A ((querier A s).answer A n) ⟨.distance, 0⟩ (.notFound : StatOnce Int) (T := .distance) ()
          fun v => (Prog.lift (distance x y)).bind fun d => .ret (v.set d)).trans (dif_pos rfl)
        rw [bind_eval, OpArm.eval_lift] at this
        refine (congrArg (· >>= fun p' => .ok p') this).trans ?_
        cases distance x y <;> rfl
  rw [runCalls_app, runCalls_skip]
  · change (runCalls _ _ (⟨⟨.distance, 0⟩, .val (E := prog) Kind.distance (.notFound : StatOnce Int)⟩ : Pair prog) >>= _) = _
    rw [hp]
    cases s.pos a with
    | none => rfl
    | some x =>
      cases s.pos b with
      | none => rfl
      | some y =>
        simp only
        cases distance x y <;> rfl
  · intro c hc
    unfold CStream.relationCalls at hc
    split at hc
    · rw [List.mem_singleton.1 hc]
      exact (onStat_eval A _ ⟨.distance, 0⟩ (.notFound : StatOnce Int) (T := .allegiance) () _).trans
        (dif_neg (by intro h; cases h))
    · cases hc

/-- and about the allegiance -/
theorem answer_allegiance (s : Scene) (n a b : Nat) (q : QualifierQuery Bool) :
    (querier A s).answer A (n + 1) (.relation a b q ⟨.allegiance, 0⟩) =
      if s.isStat a && s.isStat b then
        match s.alleg a, s.alleg b with
        | some x, some y => .ok (some (.found (if x = y then .ally else .enemy)))
        | _, _ => .ok (some .notFound)
      else .ok none := by
  rw [Joined.answer_succ, ideal_relation]
  congr 1
  have hp : ∀ v : StatOnce Relation, runCalls ((querier A s).answer A n) ((position A s).relationCalls a b q)
      ⟨⟨.allegiance, 0⟩, .val (E := prog) Kind.allegiance v⟩ = .ok ⟨⟨.allegiance, 0⟩, .val (E := prog) Kind.allegiance v⟩ := by
    intro v
    refine runCalls_skip _ _ _ ?_
    intro c hc
    unfold CStream.relationCalls at hc
    split at hc
    · rw [List.mem_singleton.1 hc]
      exact (onStat_eval A _ ⟨.allegiance, 0⟩ v (T := .distance) () _).trans (dif_neg (by intro h; cases h))
    · cases hc
  rw [runCalls_app]
  have ha : runCalls ((querier A s).answer A n) ((allegiance A s).relationCalls a b q)
      ⟨⟨.allegiance, 0⟩, .val (E := prog) Kind.allegiance (.notFound : StatOnce Relation)⟩ =
      .ok ⟨⟨.allegiance, 0⟩, .val (E := prog) Kind.allegiance (match s.alleg a, s.alleg b with
        | some x, some y => .found (if x = y then .ally else .enemy)
        | _, _ => (.notFound : StatOnce Relation))⟩ := by
    simp only [CStream.relationCalls, allegiance]
    cases s.alleg a with
    | none => rfl
    | some x =>
      cases s.alleg b with
      | none => rfl
      | some y =>
        simp only [runCalls]
        have := onStat_eval A ((querier A s).answer A n) ⟨.allegiance, 0⟩ (.notFound : StatOnce Relation)
          (T := .allegiance) () fun v => .ret (v.set (if x = y then .ally else .enemy))
        exact congrArg (· >>= fun p' => .ok p') (this.trans (dif_pos rfl))
  change ((runCalls _ _ (⟨⟨.allegiance, 0⟩, .val (E := prog) Kind.allegiance (.notFound : StatOnce Relation)⟩ : Pair prog) >>= _) >>= _) = _
  rw [ha]
  simp only [bind, Except.bind, hp]
  cases s.alleg a with
  | none => rfl
  | some x => cases s.alleg b <;> rfl

/-- what an aura adds -/
def distTerm (s : Scene) (e t : Nat) : Res Int :=
  if s.isStat t then
    match s.pos e, s.pos t with
    | some x, some y => distance x y
    | _, _ => .error .panic
  else .error .panic

def allegTerm (s : Scene) (e : Nat) (x : Int × Nat) : Res Int :=
  if s.isStat x.2 then
    match s.alleg e, s.alleg x.2 with
    | some a, some b => .ok (if a = b then x.1 else 0)
    | _, _ => .error .panic
  else .error .panic

theorem distTerm_ok (s : Scene) (e t : Nat) (d : Int) :
    distTerm s e t = .ok d ↔ AtDistance s e t d ∧ d ≤ 2147483647 := by
  unfold distTerm AtDistance
  by_cases ht : s.isStat t = true
  · rw [if_pos ht]
    cases s.pos e with
    | none => simp
    | some a =>
      cases s.pos t with
      | none => simp
      | some b =>
        by_cases h : manhattan a b ≤ 2147483647
        · rw [show (match some a, some b with
            | some x, some y => distance x y
            | _, _ => .error .panic) = distance a b from rfl, distance_ok h]
          simp only [Except.ok.injEq, ht, Option.some.injEq, true_and]
          constructor
          · rintro rfl; exact ⟨⟨a, b, rfl, rfl, rfl⟩, h⟩
          · rintro ⟨⟨a', b', rfl, rfl, rfl⟩, _⟩; rfl
        · rw [show (match some a, some b with
            | some x, some y => distance x y
            | _, _ => .error .panic) = distance a b from rfl, distance_panic h]
          simp only [reduceCtorEq, false_iff]
          rintro ⟨⟨_, a', b', h1, h2, rfl⟩, h3⟩
          cases h1; cases h2
          exact h h3
  · rw [if_neg ht]
    simp [ht]

theorem distTerm_panic (s : Scene) (e t : Nat) (x : Err) (h : distTerm s e t = .error x) : x = .panic := by
  unfold distTerm at h
  split at h
  · split at h
    · rename_i a b _ _
      by_cases hm : manhattan a b ≤ 2147483647
      · rw [distance_ok hm] at h; cases h
      · rw [distance_panic hm] at h; cases h; rfl
    · cases h; rfl
  · cases h; rfl

theorem allegTerm_ok (s : Scene) (e : Nat) (x : Int × Nat) (d : Int) : allegTerm s e x = .ok d ↔ Worth s e x d := by
  unfold allegTerm Worth
  by_cases ht : s.isStat x.2 = true
  · rw [if_pos ht]
    cases s.alleg e with
    | none => simp
    | some a =>
      cases s.alleg x.2 with
      | none => simp
      | some b =>
        simp only [Except.ok.injEq, ht, Option.some.injEq, true_and]
        constructor
        · rintro rfl; exact ⟨a, b, rfl, rfl, rfl⟩
        · rintro ⟨a', b', rfl, rfl, rfl⟩; rfl
  · rw [if_neg ht]
    simp [ht]

theorem allegTerm_panic (s : Scene) (e : Nat) (t : Int × Nat) (x : Err) (h : allegTerm s e t = .error x) : x = .panic := by
  unfold allegTerm at h
  split at h
  · split at h <;> cases h
    rfl
  · cases h; rfl

theorem skip_self (s : Scene) (o : Oracle prog Bool Nat) (e : Nat) (q : QualifierQuery Bool) (p : Pair prog) :
    runCalls o ((allegiance A s).calls e q [e] ++ (position A s).calls e q [e]) p = .ok p := by
  refine runCalls_skip _ _ _ fun c hc => ?_
  rcases List.mem_append.1 hc with hc | hc
  · obtain ⟨_, _, rfl⟩ := List.mem_map.1 hc
    rfl
  · obtain ⟨_, _, rfl⟩ := List.mem_map.1 hc
    rfl

theorem dist_call (s : Scene) (n e : Nat) (he : s.isStat e = true) (q : QualifierQuery Bool) (t : Nat) (v : StatInt) :
    (distCall A s e q t (effect 0 v)).eval ((querier A s).answer A (n + 1)) =
      distTerm s e t >>= fun d => i32.add v.addend d >>= fun a => .ok (effect 0 { v with addend := a }) := by
  refine (onStat_eval A _ ⟨.effects, 0⟩ v (T := .effects) false _).trans ((dif_pos rfl).trans ?_)
  simp only [Prog.eval]
  rw [answer_distance, he]
  unfold distTerm
  cases s.isStat t with
  | false => rfl
  | true =>
    simp only [Bool.and_self, if_true]
    cases s.pos e with
    | none => rfl
    | some x =>
      cases s.pos t with
      | none => rfl
      | some y =>
        simp only
        cases distance x y with
        | error e => rfl
        | ok d =>
          simp only [bind, Except.bind, unwrap2, StatOnce.unwrap, StatOnce.intoOption, Prog.lift, Prog.bind]
          cases i32.add v.addend d <;> rfl

theorem alleg_call (s : Scene) (n e : Nat) (he : s.isStat e = true) (q : QualifierQuery Bool) (t : Int × Nat) (v : StatInt) :
    (allegCall A s e q t (effect 1 v)).eval ((querier A s).answer A (n + 1)) =
      allegTerm s e t >>= fun d => i32.add v.addend d >>= fun a => .ok (effect 1 { v with addend := a }) := by
  refine (onStat_eval A _ ⟨.effects, 1⟩ v (T := .effects) true _).trans ((dif_pos rfl).trans ?_)
  simp only [Prog.eval]
  rw [answer_allegiance, he]
  unfold allegTerm
  cases s.isStat t.2 with
  | false => rfl
  | true =>
    simp only [Bool.and_self, if_true]
    cases s.alleg e with
    | none => rfl
    | some x =>
      cases s.alleg t.2 with
      | none => rfl
      | some y =>
        by_cases h : x = y
        · simp only [h, if_true, bind, Except.bind, unwrap2, StatOnce.unwrap, StatOnce.intoOption, Prog.lift, Prog.bind]
          cases i32.add v.addend t.1 <;> rfl
        · simp only [h, if_false, bind, Except.bind, unwrap2, StatOnce.unwrap, StatOnce.intoOption, Prog.lift, Prog.bind]
          cases i32.add v.addend 0 <;> rfl

theorem answer_dist (s : Scene) (n e : Nat) (he : s.isStat e = true) (q : QualifierQuery Bool) :
    (querier A s).answer A (n + 2) (.stat e q ⟨.effects, 0⟩) =
      total (distTerm s e) 0 (s.distAuras e) >>= fun a => .ok (some (plain a)) := by
  rw [Joined.answer_succ, ideal_stat, if_pos he, runCalls_app, skip_self]
  simp only [bind, Except.bind]
  rw [runCalls_app, runCalls_skip]
  · simp only [bind, Except.bind]
    rw [runCalls_total _ 0 _ _ (dist_call A s n e he q)]
    change ((total (distTerm s e) 0 (s.distAuras e) >>= _) >>= _) = _
    cases total (distTerm s e) 0 (s.distAuras e) <;> rfl
  · intro c hc
    obtain ⟨x, _, rfl⟩ := List.mem_map.1 hc
    exact (onStat_eval A _ ⟨.effects, 0⟩ (plain 0) (T := .effects) true fun v =>
      .ask (.relation e x.2 q ⟨.allegiance, 0⟩) fun o =>
        (unwrap2 o).bind fun d => Prog.lift ((sv .effects).add v (match d with
          | .ally => x.1
          | .enemy => 0))).trans (dif_neg (by intro h; cases h))

theorem answer_alleg (s : Scene) (n e : Nat) (he : s.isStat e = true) (q : QualifierQuery Bool) :
    (querier A s).answer A (n + 2) (.stat e q ⟨.effects, 1⟩) =
      total (allegTerm s e) 0 (s.allegAuras e) >>= fun a => .ok (some (plain a)) := by
  rw [Joined.answer_succ, ideal_stat, if_pos he, runCalls_app, skip_self]
  simp only [bind, Except.bind]
  rw [runCalls_app, runCalls_total _ 1 _ _ (alleg_call A s n e he q)]
  change (((total (allegTerm s e) 0 (s.allegAuras e) >>= _) >>= _) >>= _) = _
  cases total (allegTerm s e) 0 (s.allegAuras e) with
  | error e => rfl
  | ok a =>
    simp only [bind, Except.bind]
    rw [runCalls_skip]
    · rfl
    · intro c hc
      obtain ⟨x, _, rfl⟩ := List.mem_map.1 hc
      exact (onStat_eval A _ ⟨.effects, 1⟩ { plain 0 with addend := a } (T := .effects) false fun v =>
        .ask (.relation e x q ⟨.distance, 0⟩) fun o =>
          (unwrap2 o).bind fun d => Prog.lift ((sv .effects).add v d)).trans
        (dif_neg (by intro h; cases h))

theorem manhattan_nonneg (a b : Int × Int) : 0 ≤ manhattan a b :=
  Int.add_nonneg (abs_nonneg _) (abs_nonneg _)

theorem sums {s : Scene} {e : Nat} {ts : List Nat} {ds : List Int} (h : List.Forall₂ (AtDistance s e) ts ds) :
    0 ≤ ds.sum ∧ (∀ d ∈ ds, d ≤ ds.sum) ∧ ∀ l, l <+: ds → 0 ≤ l.sum ∧ l.sum ≤ ds.sum := by
  have h0 : ∀ d ∈ ds, 0 ≤ d := by
    induction h with
    | nil => intro d hd; cases hd
    | cons hx _ ih =>
      intro d hd
      rcases List.mem_cons.1 hd with rfl | hd
      · obtain ⟨_, a, b, _, _, rfl⟩ := hx
        exact manhattan_nonneg a b
      · exact ih d hd
  have hs : ∀ l : List Int, (∀ d ∈ l, 0 ≤ d) → 0 ≤ l.sum := fun l hl => List.sum_nonneg hl
  refine ⟨hs ds h0, fun d hd => ?_, ?_⟩
  · obtain ⟨l, r, rfl⟩ := List.append_of_mem hd
    have h1 := hs l fun x hx => h0 x (List.mem_append_left _ hx)
    have h2 := hs r fun x hx => h0 x (List.mem_append_right _ (List.mem_cons_of_mem _ hx))
    rw [List.sum_append, List.sum_cons]
    omega
  · rintro l ⟨r, rfl⟩
    have h1 := hs l fun x hx => h0 x (List.mem_append_left _ hx)
    have h2 := hs r fun x hx => h0 x (List.mem_append_right _ hx)
    rw [List.sum_append]
    omega

theorem forall₂_and {X Y : Type} {R S : X → Y → Prop} {xs : List X} {ys : List Y} (h : List.Forall₂ R xs ys)
    (hs : ∀ x, ∀ y ∈ ys, R x y → S x y) : List.Forall₂ S xs ys := by
  induction h with
  | nil => exact .nil
  | cons hx _ ih =>
    exact .cons (hs _ _ List.mem_cons_self hx) (ih fun x y hy => hs x y (List.mem_cons_of_mem _ hy))

/-- **C144** The `Distance` effect on an entity is the sum of the distances to the targets of the auras on its children -/
theorem C144_distance (s : Scene) (e : Nat) (he : s.isStat e = true) (q : QualifierQuery Bool) (ds : List Int)
    (h : List.Forall₂ (AtDistance s e) (s.distAuras e) ds) (hr : ds.sum ≤ 2147483647) (n : Nat) :
    (querier A s).answer A (n + 2) (.stat e q ⟨.effects, 0⟩) = .ok (some (plain ds.sum)) := by
  obtain ⟨h1, h2, h3⟩ := sums h
  rw [answer_dist A s n e he q, total_ok (forall₂_and h fun t d hd ht =>
    (distTerm_ok s e t d).2 ⟨ht, Int.le_trans (h2 d hd) hr⟩) 0 ?_, Int.zero_add]
  · rfl
  · intro l hl
    obtain ⟨h4, h5⟩ := h3 l hl
    exact ⟨by omega, by omega⟩

/-- **C144** If a target is no `StatEntity`, or it or the entity has no position, or the sum is no `i32`, the query
panics -/
theorem C144_distance_panics (s : Scene) (e : Nat) (he : s.isStat e = true) (q : QualifierQuery Bool)
    (h : ¬ ∃ ds, List.Forall₂ (AtDistance s e) (s.distAuras e) ds ∧ ds.sum ≤ 2147483647) (n : Nat) :
    (querier A s).answer A (n + 2) (.stat e q ⟨.effects, 0⟩) = .error .panic := by
  rw [answer_dist A s n e he q, total_panic (distTerm_panic s e) _ 0 ⟨by omega, by omega⟩ ?_]
  · rfl
  · rintro ⟨ds, h1, h2⟩
    refine h ⟨ds, forall₂_and h1 fun t d _ ht => ((distTerm_ok s e t d).1 ht).1, ?_⟩
    have := (h2 ds (List.prefix_refl _)).2
    omega

/-- **C144** The `Allegiance` effect on an entity is the sum of the strengths of those auras on its children whose
target is on its side -/
theorem C144_allegiance (s : Scene) (e : Nat) (he : s.isStat e = true) (q : QualifierQuery Bool) (ds : List Int)
    (h : List.Forall₂ (Worth s e) (s.allegAuras e) ds) (hr : ∀ l, l <+: ds → InI32 l.sum) (n : Nat) :
    (querier A s).answer A (n + 2) (.stat e q ⟨.effects, 1⟩) = .ok (some (plain ds.sum)) := by
  rw [answer_alleg A s n e he q, total_ok (forall₂_and h fun t d _ ht => (allegTerm_ok s e t d).2 ht) 0 ?_, Int.zero_add]
  · rfl
  · intro l hl
    rw [Int.zero_add]
    exact hr l hl

/-- **C144** If a target is no `StatEntity`, or it or the entity has no allegiance, or one of the sums on the way is no
`i32`, the query panics -/
theorem C144_allegiance_panics (s : Scene) (e : Nat) (he : s.isStat e = true) (q : QualifierQuery Bool)
    (h : ¬ ∃ ds, List.Forall₂ (Worth s e) (s.allegAuras e) ds ∧ ∀ l, l <+: ds → InI32 l.sum) (n : Nat) :
    (querier A s).answer A (n + 2) (.stat e q ⟨.effects, 1⟩) = .error .panic := by
  rw [answer_alleg A s n e he q, total_panic (allegTerm_panic s e) _ 0 ⟨by omega, by omega⟩ ?_]
  · rfl
  · rintro ⟨ds, h1, h2⟩
    refine h ⟨ds, forall₂_and h1 fun t d _ ht => (allegTerm_ok s e t d).1 ht, fun l hl => ?_⟩
    have := h2 l hl
    rwa [Int.zero_add] at this

/-- **C144** What the effects evaluate to -/
theorem C144_eval (x : Int) (h : InI32 x) : (sv .effects).eval (plain x) = .ok x := by
  change (i32.mul x 1 >>= fun y => .ok (i32.max (i32.min y 2147483647) (-2147483648))) = _
  unfold NumTy.mul
  rw [Int.mul_one, fit_ok h]
  simp only [bind, Except.bind]
  obtain ⟨h1, h2⟩ := h
  rw [show i32.min x 2147483647 = x from by unfold NumTy.min; split <;> omega,
    show i32.max x (-2147483648) = x from by unfold NumTy.max; split <;> omega]

/-- **C144** The two effects are different stats: they are read back from their indices, listed, and have different
names -/
theorem C144_stats {T : Kind} (x : prog.Sel T) :
    prog.fromIndex T (prog.asIndex x) = .ok x ∧ x ∈ prog.values T ∧
    ∀ {T' : Kind} (x' : prog.Sel T'), prog.statName x = prog.statName x' → (⟨T, x⟩ : (T : Kind) × prog.Sel T) = ⟨T', x'⟩ := by
  cases T <;> cases x <;> refine ⟨rfl, by simp, fun {T'} x' h => ?_⟩ <;> cases T' <;> cases x' <;>
    first
    | rfl
    | exact absurd h (by decide)

/-- **C144** An entity without `StatEntity` has no effects -/
theorem C144_none (s : Scene) (e : Nat) (he : s.isStat e = false) (q : QualifierQuery Bool) (i n : Nat) :
    (querier A s).answer A (n + 1) (.stat e q ⟨.effects, i⟩) = .ok none := by
  rw [Joined.answer_succ, ideal_stat, he]
  rfl

/-! ### with a cache -/

variable {α β : Type}

theorem all_bind {S : Res α → Prop} {R : Res β → Prop} {p : P α} {f : α → P β} (hp : p.All S)
    (h : ∀ a, S (.ok a) → (f a).All R) (he : ∀ e, S (.error e) → R (.error e)) : (p.bind f).All R := by
  induction p with
  | ret a => exact h a hp
  | fail e => exact he e hp
  | ask r k ih => exact fun x => ih x (hp x)
  | attempt r k ih => exact fun x => ih x (hp x)
  | clear k ih => exact ih hp
  | store e q p k ih =>
    simp only [Prog.All, Prog.bind] at hp ⊢
    revert hp
    cases p.cloneBuffer with
    | ok b => exact ih
    | error e => exact he e

theorem all_lift {S : Res α → Prop} {r : Res α} (h : S r) : (Prog.lift r : P α).All S := by
  cases r <;> exact h

theorem noStore_bind {p : P α} {f : α → P β} (hp : p.NoStore) (hf : ∀ a, (f a).NoStore) : (p.bind f).NoStore := by
  induction p with
  | ret a => exact hf a
  | fail e => trivial
  | ask r k ih => exact fun x => ih x (hp x)
  | attempt r k ih => exact fun x => ih x (hp x)
  | clear k ih => exact ih hp
  | store e q p k ih => exact hp.elim

theorem noStore_lift (r : Res α) : (Prog.lift r : P α).NoStore := by
  cases r <;> trivial

theorem honest_of_noStore {J : Joined prog Bool Nat} {p : P α} (hp : p.NoStore) : p.Honest A J := by
  induction p with
  | ret a => trivial
  | fail e => trivial
  | ask r k ih => exact fun x _ => ih x (hp x)
  | attempt r k ih => exact fun x _ => ih x (hp x)
  | clear k ih => exact ih hp
  | store e q p k ih => exact hp.elim

theorem honestCalls {J : Joined prog Bool Nat} {cs : List (Call prog Bool Nat)} (h : ∀ c ∈ cs, ∀ p, (c p).NoStore)
    (p : Pair prog) : HonestCalls A J cs p := by
  induction cs generalizing p with
  | nil => trivial
  | cons c cs ih =>
    exact ⟨honest_of_noStore A (h c List.mem_cons_self p), fun _ p' _ =>
      ih (fun c hc => h c (List.mem_cons_of_mem _ hc)) p'⟩

theorem onStat_noStore (p : Pair prog) {T : Kind} (other : prog.Sel T)
    (f : prog.El (prog.valTy T) → P (prog.El (prog.valTy T))) (hf : ∀ v, (f v).NoStore) :
    (onStat A p other f).NoStore := by
  refine noStore_bind (noStore_lift _) fun o => ?_
  cases o with
  | none => trivial
  | some v => exact noStore_bind (hf v) fun _ => trivial

theorem onStat_safe {T : Kind} (other : prog.Sel T)
    (f : prog.El (prog.valTy T) → P (prog.El (prog.valTy T))) (hf : ∀ v, (f v).All fun r => r ≠ .error .ub) :
    Call.Safe (fun p => onStat A p other f) := by
  intro p hp
  obtain ⟨s, b⟩ := p
  obtain ⟨v, hv⟩ := hp
  simp only at v hv
  subst hv
  have hT : Storable (prog.statLayout T) := by constructor <;> simp
  by_cases h : s = prog.asEntry other
  · subst h
    have := (C36_isThenCast_partial A other hT).1 v
    unfold onStat
    unfold Pair.typed at this
    beta_reduce
    rw [this]
    change ((f v).bind _).All _
    refine all_bind (hf v) (fun v' _ => ⟨rfl, v', rfl⟩) fun e he => ?_
    exact fun h => he (h ▸ rfl)
  · have := (C36_isThenCast_partial A other hT).2 s v h
    unfold onStat
    unfold Pair.typed at this
    beta_reduce
    rw [this]
    exact ⟨rfl, v, rfl⟩

theorem fit_noUb (x : Int) : i32.fit x ≠ .error .ub := by
  by_cases h : InI32 x
  · rw [fit_ok h]; intro h; cases h
  · rw [fit_panic h]; intro h; cases h

theorem distance_noUb (a b : Int × Int) : distance a b ≠ .error .ub := by
  by_cases h : manhattan a b ≤ 2147483647
  · rw [distance_ok h]; intro h; cases h
  · rw [distance_panic h]; intro h; cases h

theorem add_noUb (v : StatInt) (d : Int) : (sv .effects).add v d ≠ .error .ub := by
  change (i32.fit (v.addend + d) >>= fun a => .ok { v with addend := a }) ≠ _
  have := fit_noUb (v.addend + d)
  cases h : i32.fit (v.addend + d) with
  | ok a => intro h; cases h
  | error e =>
    rw [h] at this
    intro h'
    cases h'
    exact this rfl

theorem unwrap2_all {T : Type} (o : Option (StatOnce T)) : (unwrap2 o).All fun r => r ≠ .error .ub := by
  rcases o with _ | (_ | x | _) <;> exact fun h => by cases h

theorem unwrap2_noStore {T : Type} (o : Option (StatOnce T)) : (unwrap2 o).NoStore := by
  rcases o with _ | (_ | x | _) <;> trivial

theorem noUb_bind {p : P α} {f : α → P β} (hp : p.All fun r => r ≠ .error .ub)
    (hf : ∀ a, (f a).All fun r => r ≠ .error .ub) : (p.bind f).All fun r => r ≠ .error .ub :=
  all_bind hp (fun a _ => hf a) fun e he h => he (by cases h; rfl)

theorem position_noStore (s : Scene) (a b : Int × Int) (q : QualifierQuery Bool) (p : Pair prog) :
    ((position A s).relation a b q p).NoStore :=
  onStat_noStore A p _ _ fun _ => noStore_bind (noStore_lift _) fun _ => trivial

theorem allegiance_noStore (s : Scene) (a b : Bool) (q : QualifierQuery Bool) (p : Pair prog) :
    ((allegiance A s).relation a b q p).NoStore :=
  onStat_noStore A p _ _ fun _ => trivial

theorem dist_noStore (s : Scene) (e it : Nat) (q : QualifierQuery Bool) (p : Pair prog) :
    ((distanceAura A s).stream e it q p).NoStore :=
  onStat_noStore A p _ _ fun _ o => noStore_bind (unwrap2_noStore o) fun _ => noStore_lift _

theorem alleg_noStore (s : Scene) (e : Nat) (it : Int × Nat) (q : QualifierQuery Bool) (p : Pair prog) :
    ((allegianceAura A s).stream e it q p).NoStore :=
  onStat_noStore A p _ _ fun _ o => noStore_bind (unwrap2_noStore o) fun _ => noStore_lift _

theorem querier_safe (s : Scene) : (querier A s).Safe A where
  globals := by intro g hg; cases hg
  streams := by
    intro st hst e it _ this q
    change st ∈ [allegiance A s, position A s, allegianceAura A s, distanceAura A s] at hst
    simp only [List.mem_cons, List.not_mem_nil, or_false] at hst
    rcases hst with rfl | rfl | rfl | rfl
    · exact fun p hp => ⟨rfl, hp⟩
    · exact fun p hp => ⟨rfl, hp⟩
    · refine onStat_safe A (T := .effects) true _ fun v => ?_
      refine fun o => noUb_bind (unwrap2_all o) fun d => ?_
      exact all_lift (S := fun r => r ≠ .error .ub) (add_noUb _ _)
    · refine onStat_safe A (T := .effects) false _ fun v => ?_
      refine fun o => noUb_bind (unwrap2_all o) fun d => ?_
      exact all_lift (S := fun r => r ≠ .error .ub) (add_noUb _ _)
  relations := by
    intro st hst a b q
    change st ∈ [allegiance A s, position A s] at hst
    simp only [List.mem_cons, List.not_mem_nil, or_false] at hst
    rcases hst with rfl | rfl
    · refine onStat_safe A (T := .allegiance) () _ fun v => ?_
      exact fun h => by cases h
    · refine onStat_safe A (T := .distance) () _ fun v => ?_
      refine noUb_bind (all_lift (S := fun r => r ≠ .error .ub) (distance_noUb a b)) fun d => ?_
      exact fun h => by cases h
  attrs := by
    intro st hst e it _ this a
    change st ∈ [allegiance A s, position A s, allegianceAura A s, distanceAura A s] at hst
    simp only [List.mem_cons, List.not_mem_nil, or_false] at hst
    rcases hst with rfl | rfl | rfl | rfl <;> exact fun h => by cases h
  defaults := by intro d hd; cases hd

theorem querier_right (s : Scene) : (querier A s).Right A where
  results _ := (querier_safe A s).storesRight
  stat := by
    intro e q st v _ _
    refine honestCalls A (fun c hc p => ?_) _
    simp only [Joined.statCalls, querier, world, World.withRelation, Joined.withRelation, Joined.withChildren,
      Streams.leaves, Option.getD_none, List.map_nil, List.nil_append, List.cons_append, List.flatMap_cons,
      List.flatMap_nil, List.append_nil, List.mem_append, CStream.calls, List.mem_map] at hc
    rcases hc with (⟨_, _, rfl⟩ | ⟨_, _, rfl⟩) | ⟨_, _, rfl⟩ | ⟨_, _, rfl⟩
    · trivial
    · trivial
    · exact alleg_noStore A s e _ q p
    · exact dist_noStore A s e _ q p
  relation := by
    intro a b q st v _ _ _
    refine honestCalls A (fun c hc p => ?_) _
    simp only [Joined.relationCalls, querier, world, World.withRelation, Joined.withRelation, Joined.withChildren,
      Streams.leaves, Option.getD_none, List.map_nil, List.nil_append, List.cons_append, List.flatMap_cons,
      List.flatMap_nil, List.append_nil, List.mem_append, CStream.relationCalls] at hc
    rcases hc with hc | hc
    · split at hc
      · rw [List.mem_singleton.1 hc]
        exact allegiance_noStore A s _ _ q p
      · cases hc
    · split at hc
      · rw [List.mem_singleton.1 hc]
        exact position_noStore A s _ _ q p
      · cases hc
  attr := by
    intro e a c hc
    refine honest_of_noStore A ?_
    simp only [Joined.attrCalls, querier, world, World.withRelation, Joined.withRelation, Joined.withChildren,
      Streams.leaves, List.nil_append, List.cons_append, List.flatMap_cons,
      List.flatMap_nil, List.append_nil, List.mem_append, CStream.attrCalls, List.mem_map] at hc
    rcases hc with (⟨_, _, rfl⟩ | ⟨_, _, rfl⟩) | hc
    · trivial
    · trivial
    · split at hc
      · simp only [List.mem_append, List.mem_map] at hc
        rcases hc with ⟨_, _, rfl⟩ | ⟨_, _, rfl⟩ <;> trivial
      · cases hc

theorem cached (s₀ : Scene) (evs : List (Event prog Bool Nat)) (hs : ∀ J, .change J ∈ evs → ∃ s, J = querier A s)
    (hc : Cleared false evs) {s : Scene} {n e : Nat} {q : QualifierQuery Bool} {i : Nat} {res r : Res (Option StatInt)}
    (h : (⟨querier A s, n + 2, .stat e q ⟨.effects, i⟩, res⟩ : Outcome prog Bool Nat) ∈
      (history A (querier A s₀) [] evs).1)
    (ha : (querier A s).answer A (n + 2) (.stat e q ⟨.effects, i⟩) = r) (hf : r ≠ .error .fuel) : res = r := by
  have hr : RightChanges A evs := fun J hJ => by
    obtain ⟨s, rfl⟩ := hs J hJ
    exact querier_right A s
  have := ((C48_transparent_partial (querier A s₀) evs (querier_right A s₀) hr hc).2 _ h).1
  exact (this fun h' => hf (ha.symm.trans h')).trans ha

/-- **C144** The same holds with a cache, however components, children and auras change over time and whatever else is
queried, as long as the cache is cleared after each change before the next query: the `Distance` effect is the sum for the
world as it is at the time of the query -/
theorem C144_cached_distance (s₀ : Scene) (evs : List (Event prog Bool Nat))
    (hs : ∀ J, .change J ∈ evs → ∃ s, J = querier A s) (hc : Cleared false evs) (s : Scene) (n e : Nat)
    (q : QualifierQuery Bool) (res : Res (Option StatInt))
    (h : (⟨querier A s, n + 2, .stat e q ⟨.effects, 0⟩, res⟩ : Outcome prog Bool Nat) ∈
      (history A (querier A s₀) [] evs).1)
    (he : s.isStat e = true) :
    (∀ ds, List.Forall₂ (AtDistance s e) (s.distAuras e) ds → ds.sum ≤ 2147483647 → res = .ok (some (plain ds.sum))) ∧
    ((¬ ∃ ds, List.Forall₂ (AtDistance s e) (s.distAuras e) ds ∧ ds.sum ≤ 2147483647) → res = .error .panic) :=
  ⟨fun ds h1 h2 => cached A s₀ evs hs hc h (C144_distance A s e he q ds h1 h2 n) (by intro h; cases h),
    fun h1 => cached A s₀ evs hs hc h (C144_distance_panics A s e he q h1 n) (by intro h; cases h)⟩

/-- **C144** and so is the `Allegiance` effect -/
theorem C144_cached_allegiance (s₀ : Scene) (evs : List (Event prog Bool Nat))
    (hs : ∀ J, .change J ∈ evs → ∃ s, J = querier A s) (hc : Cleared false evs) (s : Scene) (n e : Nat)
    (q : QualifierQuery Bool) (res : Res (Option StatInt))
    (h : (⟨querier A s, n + 2, .stat e q ⟨.effects, 1⟩, res⟩ : Outcome prog Bool Nat) ∈
      (history A (querier A s₀) [] evs).1)
    (he : s.isStat e = true) :
    (∀ ds, List.Forall₂ (Worth s e) (s.allegAuras e) ds → (∀ l, l <+: ds → InI32 l.sum) →
      res = .ok (some (plain ds.sum))) ∧
    ((¬ ∃ ds, List.Forall₂ (Worth s e) (s.allegAuras e) ds ∧ ∀ l, l <+: ds → InI32 l.sum) → res = .error .panic) :=
  ⟨fun ds h1 h2 => cached A s₀ evs hs hc h (C144_allegiance A s e he q ds h1 h2 n) (by intro h; cases h),
    fun h1 => cached A s₀ evs hs hc h (C144_allegiance_panics A s e he q h1 n) (by intro h; cases h)⟩

/-- **C144** Other entities have no effects then either -/
theorem C144_cached_none (s₀ : Scene) (evs : List (Event prog Bool Nat))
    (hs : ∀ J, .change J ∈ evs → ∃ s, J = querier A s) (hc : Cleared false evs) (s : Scene) (n e : Nat)
    (q : QualifierQuery Bool) (i : Nat) (res : Res (Option StatInt))
    (h : (⟨querier A s, n + 2, .stat e q ⟨.effects, i⟩, res⟩ : Outcome prog Bool Nat) ∈
      (history A (querier A s₀) [] evs).1)
    (he : s.isStat e = false) : res = .ok none :=
  cached A s₀ evs hs hc h (C144_none A s e he q i (n + 1)) (by intro h; cases h)

/-- **C144** and all queries of the history are made: clearing never fails -/
theorem C144_cached_all (s₀ : Scene) (evs : List (Event prog Bool Nat))
    (hs : ∀ J, .change J ∈ evs → ∃ s, J = querier A s) (hc : Cleared false evs) :
    (history A (querier A s₀) [] evs).1.length = evs.countP Event.isQuery :=
  (C48_transparent_partial (querier A s₀) evs (querier_right A s₀) (fun J hJ => by
    obtain ⟨s, rfl⟩ := hs J hJ
    exact querier_right A s) hc).1

/-! ### without clearing -/

theorem quiet_bind {p : P α} {f : α → P β} (hp : p.Quiet) (hf : ∀ a, (f a).Quiet) : (p.bind f).Quiet := by
  induction p with
  | ret a => exact hf a
  | fail e => trivial
  | ask r k ih => exact fun x => ih x (hp x)
  | attempt r k ih => exact fun x => ih x (hp x)
  | clear k ih => exact hp.elim
  | store e q p k ih => exact hp.elim

theorem quiet_lift (r : Res α) : (Prog.lift r : P α).Quiet := by
  cases r <;> trivial

theorem onStat_quiet (p : Pair prog) {T : Kind} (other : prog.Sel T)
    (f : prog.El (prog.valTy T) → P (prog.El (prog.valTy T))) (hf : ∀ v, (f v).Quiet) :
    (onStat A p other f).Quiet := by
  refine quiet_bind (quiet_lift _) fun o => ?_
  cases o with
  | none => trivial
  | some v => exact quiet_bind (hf v) fun _ => trivial

theorem unwrap2_quiet {T : Type} (o : Option (StatOnce T)) : (unwrap2 o).Quiet := by
  rcases o with _ | (_ | x | _) <;> trivial

theorem querier_quiet (s : Scene) : (querier A s).Quiet where
  stat := by
    intro e q c hc p
    simp only [Joined.statCalls, querier, world, World.withRelation, Joined.withRelation, Joined.withChildren,
      Streams.leaves, Option.getD_none, List.map_nil, List.nil_append, List.cons_append, List.flatMap_cons,
      List.flatMap_nil, List.append_nil, List.mem_append, CStream.calls, List.mem_map] at hc
    rcases hc with (⟨_, _, rfl⟩ | ⟨_, _, rfl⟩) | ⟨_, _, rfl⟩ | ⟨_, _, rfl⟩
    · trivial
    · trivial
    · exact onStat_quiet A p _ _ fun _ o => quiet_bind (unwrap2_quiet o) fun _ => quiet_lift _
    · exact onStat_quiet A p _ _ fun _ o => quiet_bind (unwrap2_quiet o) fun _ => quiet_lift _
  relation := by
    intro a b q c hc p
    simp only [Joined.relationCalls, querier, world, World.withRelation, Joined.withRelation, Joined.withChildren,
      Streams.leaves, Option.getD_none, List.map_nil, List.nil_append, List.cons_append, List.flatMap_cons,
      List.flatMap_nil, List.append_nil, List.mem_append, CStream.relationCalls] at hc
    rcases hc with hc | hc
    · split at hc
      · rw [List.mem_singleton.1 hc]
        exact onStat_quiet A p _ _ fun _ => trivial
      · cases hc
    · split at hc
      · rw [List.mem_singleton.1 hc]
        exact onStat_quiet A p _ _ fun _ => quiet_bind (quiet_lift _) fun _ => trivial
      · cases hc
  attr := by
    intro e a c hc
    simp only [Joined.attrCalls, querier, world, World.withRelation, Joined.withRelation, Joined.withChildren,
      Streams.leaves, List.nil_append, List.cons_append, List.flatMap_cons,
      List.flatMap_nil, List.append_nil, List.mem_append, CStream.attrCalls, List.mem_map] at hc
    rcases hc with (⟨_, _, rfl⟩ | ⟨_, _, rfl⟩) | hc
    · trivial
    · trivial
    · split at hc
      · simp only [List.mem_append, List.mem_map] at hc
        rcases hc with ⟨_, _, rfl⟩ | ⟨_, _, rfl⟩ <;> trivial
      · cases hc

theorem notCleared {evs : List (Event prog Bool Nat)} (hs : ∀ J, .change J ∈ evs → ∃ s, J = querier A s)
    (hc : .clear ∉ evs) (s : Scene) : NotCleared (querier A s) evs := by
  induction evs generalizing s with
  | nil => trivial
  | cons ev evs ih =>
    have hs' : ∀ J, Event.change J ∈ evs → ∃ s, J = querier A s := fun J hJ => hs J (List.mem_cons_of_mem _ hJ)
    have hc' : Event.clear ∉ evs := fun h => hc (List.mem_cons_of_mem _ h)
    cases ev with
    | query n r => exact ⟨querier_quiet A s, ih hs' hc' s⟩
    | clear => exact absurd List.mem_cons_self hc
    | change J =>
      obtain ⟨s', rfl⟩ := hs J List.mem_cons_self
      exact ih hs' hc' s'

/-- **C144** An effect that was found once, at any time, stays what it was however positions, allegiances, children and
auras change and whatever is queried, until the cache is cleared -/
theorem C144_stays (J₀ : Joined prog Bool Nat) (before : List (Event prog Bool Nat)) (s s' : Scene) (n m e : Nat)
    (q : QualifierQuery Bool) (i : Nat) (v : StatInt) (he : s.isStat e = true) (hc : s.cached = true)
    (h : (((querier A s).handle A n (.stat e q ⟨.effects, i⟩)).run A (history A J₀ [] before).2).1 = .ok (some v))
    (after : List (Event prog Bool Nat)) (hs : ∀ J, .change J ∈ after → ∃ s, J = querier A s) (hn : .clear ∉ after)
    (he' : s'.isStat e = true) (hc' : s'.cached = true) :
    (((querier A s').handle A (m + 1) (.stat e q ⟨.effects, i⟩)).run A (history A (querier A s)
      (((querier A s).handle A n (.stat e q ⟨.effects, i⟩)).run A (history A J₀ [] before).2).2 after).2).1 =
      .ok (some v) :=
  C49_stays_partial J₀ before (querier A s) (querier_safe A s) n e q ⟨.effects, i⟩ v he hc h after
    (fun J hJ => by
      obtain ⟨s, rfl⟩ := hs J hJ
      exact querier_safe A s)
    (notCleared A hs hn s) (querier A s') he' hc' m

/-! ### the test's world -/

/-- the world of the test: `a` is 0, `b` is 1, 2 and 3 are their children -/
def testScene : Scene where
  isStat e := e == 0 || e == 1
  children e := if e = 0 then some [2] else if e = 1 then some [3] else none
  pos e := if e = 0 then some (-1, 7) else if e = 1 then some (4, 5) else none
  alleg e := if e = 0 then some false else if e = 1 then some true else none
  distAura e := if e = 2 then some 1 else if e = 3 then some 0 else none
  allegAura e := if e = 2 then some (5, 1) else if e = 3 then some (7, 0) else none
  cached := true

example (q : QualifierQuery Bool) :
    (querier A testScene).answer A 2 (.stat 0 q ⟨.effects, 0⟩) = .ok (some (plain 7)) :=
  C144_distance A testScene 0 rfl q [7] (.cons ⟨rfl, (-1, 7), (4, 5), rfl, rfl, by decide⟩ .nil) (by decide) 0

example (q : QualifierQuery Bool) :
    (querier A testScene).answer A 2 (.stat 0 q ⟨.effects, 1⟩) = .ok (some (plain 0)) :=
  C144_allegiance A testScene 0 rfl q [0] (.cons ⟨rfl, false, true, rfl, rfl, rfl⟩ .nil)
    (fun l hl => by
      have : l = [] ∨ l = [0] := by
        rcases l with _ | ⟨x, l⟩
        · exact .inl rfl
        · obtain ⟨rfl, h⟩ := List.cons_prefix_cons.1 hl
          exact .inr (by rw [List.prefix_nil.1 h])
      rcases this with rfl | rfl <;> exact ⟨by decide, by decide⟩) 0

/-- without a position the target makes the query panic -/
example (q : QualifierQuery Bool) :
    (querier A { testScene with pos := fun _ => none }).answer A 2 (.stat 0 q ⟨.effects, 0⟩) = .error .panic :=
  C144_distance_panics A _ 0 rfl q (by
    rintro ⟨ds, h, _⟩
    cases h with
    | cons h _ => obtain ⟨_, a, b, h, _⟩ := h; cases h) 0

/-- without clearing the cache, the query that found 7 finds 7 again after `b` has moved -/
example (q : QualifierQuery Bool) :
    let moved := { testScene with pos := fun e => if e = 1 then some (4, 4) else testScene.pos e }
    let r : Req prog Bool Nat := .stat 0 q ⟨.effects, 0⟩
    (((querier A moved).handle A 2 r).run A (((querier A testScene).handle A 2 r).run A []).2).1 =
      .ok (some (plain 7)) := by
  intro moved r
  refine C144_stays A (querier A testScene) [] testScene moved 2 1 0 q 0 (plain 7) rfl rfl ?_ [.change (querier A moved)]
    (fun J hJ => ⟨moved, by simpa using hJ⟩) (by simp) rfl rfl
  exact cached A testScene [.query 2 r] (by simp) ⟨rfl, trivial⟩ (n := 0) List.mem_cons_self
    (C144_distance A testScene 0 rfl q [7] (.cons ⟨rfl, (-1, 7), (4, 5), rfl, rfl, by decide⟩ .nil) (by decide) 0)
    (by intro h; cases h)

/-- after `b` has moved and the cache is cleared, the query that found 7 finds 8 -/
example (q : QualifierQuery Bool) :
    let moved := { testScene with pos := fun e => if e = 1 then some (4, 4) else testScene.pos e }
    let r : Req prog Bool Nat := .stat 0 q ⟨.effects, 0⟩
    ∀ res, (⟨querier A moved, 2, r, res⟩ : Outcome prog Bool Nat) ∈
      (history A (querier A testScene) [] [.query 2 r, .change (querier A moved), .clear, .query 2 r]).1 →
      res = .ok (some (plain 8)) := by
  intro moved r res h
  refine (C144_cached_distance A testScene [.query 2 r, .change (querier A moved), .clear, .query 2 r] ?_
    ⟨rfl, rfl, trivial⟩ moved 0 0 q res h rfl).1 [8]
    (.cons ⟨rfl, (-1, 7), (4, 4), rfl, rfl, by decide⟩ .nil) (by decide)
  intro J hJ
  simp only [List.mem_cons, reduceCtorEq, List.not_mem_nil, or_false, false_or, Event.change.injEq] at hJ
  exact ⟨moved, hJ⟩

end BSQ.Auras
