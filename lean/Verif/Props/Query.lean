import Verif.Proofs.Faithful
import Verif.Spec.DemoQuerier
/-!
# C43: who can be queried; C45: children; C46: relations; C47: attributes; C52: global relations;
C59: the noop querier
-/
namespace BSQ
set_option linter.unusedSectionVars false
variable {E : Env} {Q Ent α : Type} (A : Addr E) (J : Joined E Q Ent)

/-! ### C43 -/
section entities
variable [DecidableEq Q] [DecidableEq Ent]

theorem CProg.Good.any (x : CProg E Q Ent α) :
    CProg.Good (fun _ _ => True) (fun _ _ => True) (fun _ => True) x := by
  induction x with
  | ret a => trivial
  | fail e => trivial
  | get k f ih => exact fun o _ => ih o
  | put k b f ih => exact ⟨trivial, ih⟩
  | clear f ih => exact ih

theorem CProg.Good.outcome {P : Res α → Prop} {x : CProg E Q Ent α}
    (hx : CProg.Good (fun _ _ => True) (fun _ _ => True) P x) (hP : ∀ e, P (.error e)) (c : Cache E Q Ent) :
    P (x.run A c).1 :=
  (hx.run (A := A) (fun _ => True) (fun _ _ _ => trivial) (fun _ _ _ _ _ => trivial)
    (fun c _ => by cases c.clear <;> first | trivial | exact hP _) trivial).1

theorem readAs_isSome {s : StatInst E} {b : Buf E} {o : Option s.Val}
    (h : StatMap.readAs s (some b) = .ok o) : o.isSome := by
  obtain ⟨v, -, h⟩ := Res.bind_eq_ok.1 h
  cases h; rfl

theorem evalOpt_isSome {V : Type} {D : StatValue V} {v : V} {o : Option D.Out}
    (h : StatMap.evalOpt D (some v) = .ok o) : o.isSome := by
  obtain ⟨v, -, h⟩ := Res.bind_eq_ok.1 h
  cases h; rfl

/-- if it returns, it returns something -/
def SomeIfOk {β : Type} (r : Res (Option β)) : Prop := ∀ o, r = .ok o → o.isSome

theorem SomeIfOk.error {β : Type} (e : Err) : SomeIfOk (.error e : Res (Option β)) := fun _ h => by cases h

theorem handle_stat_some (n : Nat) (e : Ent) (q : QualifierQuery Q) (s : StatInst E)
    (he : J.world.isStat e = true) :
    CProg.Good (fun _ _ => True) (fun _ _ => True) (SomeIfOk (β := s.Val)) (J.handle A n (.stat e q s)) := by
  cases n with
  | zero => intro o h; cases h
  | succ n =>
    change CProg.Good _ _ _ ((CProg.lift (validate (E.layout s.ty))).bind fun _ => _)
    refine (CProg.Good.any _).bind (fun _ _ => ?_) (fun _ _ _ h => by cases h)
    have hq : CProg.Good (fun _ _ => True) (fun _ _ => True) SomeIfOk
        (J.queryStatErased A (J.handle A n) e q s) := by
      unfold Joined.queryStatErased
      simp only [he, if_true, CProg.bind_eq]
      refine (CProg.Good.any _).bind (fun o _ => ?_) (fun _ _ _ h => by cases h)
      cases o with
      | some b => intro o h; cases h; rfl
      | none =>
        unfold Joined.miss
        refine (CProg.Good.any _).bind (fun _ _ => ?_) (fun _ _ _ h => by cases h)
        refine (CProg.Good.any _).bind (fun _ _ => ?_) (fun _ _ _ h => by cases h)
        intro o h; cases h; rfl
    refine hq.bind (fun o ho => ?_) (fun _ _ _ h => by cases h)
    obtain ⟨b, rfl⟩ := Option.isSome_iff_exists.1 (ho o rfl)
    exact CProg.Good.lift (fun o' ho' => readAs_isSome ho')

theorem handle_relation_some (n : Nat) (a b : Ent) (q : QualifierQuery Q) (s : StatInst E)
    (ha : J.world.isStat a = true) (hb : J.world.isStat b = true) :
    CProg.Good (fun _ _ => True) (fun _ _ => True) (SomeIfOk (β := s.Val)) (J.handle A n (.relation a b q s)) := by
  cases n with
  | zero => intro o h; cases h
  | succ n =>
    change CProg.Good _ _ _ ((CProg.lift (validate (E.layout s.ty))).bind fun _ => _)
    refine (CProg.Good.any _).bind (fun _ _ => ?_) (fun _ _ _ h => by cases h)
    rw [J.queryRelationErased_eq]
    simp only [ha, hb, Bool.and_self, if_true, CProg.bind_eq, CProg.bind_assoc]
    refine (CProg.Good.any _).bind (fun v _ => ?_) (fun _ _ _ h => by cases h)
    refine (CProg.Good.any _).bind (fun p _ => ?_) (fun _ _ _ h => by cases h)
    exact CProg.Good.lift (fun o' ho' => readAs_isSome ho')

/-- C43: an entity that is not a `StatEntity` gives `None`, whatever is cached, and the cache is left alone -/
theorem C43_stat_unmarked (n : Nat) (c : Cache E Q Ent) (e : Ent) (q : QualifierQuery Q) (s : StatInst E)
    (hs : Storable (E.layout s.ty)) (he : J.world.isStat e = false) :
    (J.handle A (n + 1) (.stat e q s)).run A c = (.ok none, c) ∧
    (J.queryEval A (n + 1) e q s).run A c = (.ok none, c) := by
  have h : (J.handle A (n + 1) (.stat e q s)) = .ret none := by
    change (CProg.lift (validate (E.layout s.ty))).bind (fun _ => _) = _
    rw [validate_eq, if_pos hs, CProg.lift_ok, CProg.bind_ret]
    simp only [Joined.queryStatErased, he]
    rfl
  rw [Joined.queryEval, h, validate_eq, if_pos hs]
  exact ⟨rfl, rfl⟩

/-- C43: a `StatEntity` never gives `None`: if the query returns, it returns a value -/
theorem C43_stat_marked (n : Nat) (c : Cache E Q Ent) (e : Ent) (q : QualifierQuery Q) (s : StatInst E)
    (he : J.world.isStat e = true) :
    ((J.handle A n (.stat e q s)).run A c).1 ≠ .ok none ∧
    ((J.queryEval A n e q s).run A c).1 ≠ .ok none := by
  constructor
  · intro h
    exact Bool.noConfusion (((handle_stat_some A J n e q s he).outcome A SomeIfOk.error c) none h)
  · intro h
    have : CProg.Good (fun _ _ => True) (fun _ _ => True) SomeIfOk (J.queryEval A n e q s) := by
      unfold Joined.queryEval
      refine (CProg.Good.any _).bind (fun _ _ => ?_) (fun _ _ _ h => by cases h)
      refine (handle_stat_some A J n e q s he).bind (fun o ho => ?_) (fun _ _ _ h => by cases h)
      obtain ⟨v, rfl⟩ := Option.isSome_iff_exists.1 (ho o rfl)
      exact CProg.Good.lift (fun o' ho' => evalOpt_isSome ho')
    exact Bool.noConfusion ((this.outcome A SomeIfOk.error c) none h)

/-- C43: for a stat whose values do not fit the 24 byte buffer every query panics, for every entity, and leaves
the cache alone -/
theorem C43_unstorable_panics (n : Nat) (c : Cache E Q Ent) (e b : Ent) (q : QualifierQuery Q) (s : StatInst E)
    (hs : ¬ Storable (E.layout s.ty)) :
    (J.handle A (n + 1) (.stat e q s)).run A c = (.error .panic, c) ∧
    (J.queryEval A (n + 1) e q s).run A c = (.error .panic, c) ∧
    (J.handle A (n + 1) (.relation e b q s)).run A c = (.error .panic, c) ∧
    (J.queryRelationEval A (n + 1) e b q s).run A c = (.error .panic, c) := by
  have h1 : (J.handle A (n + 1) (.stat e q s)) = .fail .panic := by
    change (CProg.lift (validate (E.layout s.ty))).bind (fun _ => _) = _
    rw [validate_eq, if_neg hs]; rfl
  have h2 : (J.handle A (n + 1) (.relation e b q s)) = .fail .panic := by
    change (CProg.lift (validate (E.layout s.ty))).bind (fun _ => _) = _
    rw [validate_eq, if_neg hs]; rfl
  rw [Joined.queryEval, Joined.queryRelationEval, h1, h2, validate_eq, if_neg hs]
  exact ⟨rfl, rfl, rfl, rfl⟩

/-- C43: a relation query gives `None` when either entity is not a `StatEntity` -/
theorem C43_relation_unmarked (n : Nat) (c : Cache E Q Ent) (a b : Ent) (q : QualifierQuery Q) (s : StatInst E)
    (hs : Storable (E.layout s.ty)) (he : J.world.isStat a = false ∨ J.world.isStat b = false) :
    (J.handle A (n + 1) (.relation a b q s)).run A c = (.ok none, c) ∧
    (J.queryRelationEval A (n + 1) a b q s).run A c = (.ok none, c) := by
  have he : (J.world.isStat a && J.world.isStat b) = false := by
    rcases he with h | h <;> simp [h]
  have h : (J.handle A (n + 1) (.relation a b q s)) = .ret none := by
    change (CProg.lift (validate (E.layout s.ty))).bind (fun _ => _) = _
    rw [validate_eq, if_pos hs, CProg.lift_ok, CProg.bind_ret]
    simp only [Joined.queryRelationErased, he]
    rfl
  rw [Joined.queryRelationEval, h, validate_eq, if_pos hs]
  exact ⟨rfl, rfl⟩

/-- C43: and a value otherwise -/
theorem C43_relation_marked (n : Nat) (c : Cache E Q Ent) (a b : Ent) (q : QualifierQuery Q) (s : StatInst E)
    (ha : J.world.isStat a = true) (hb : J.world.isStat b = true) :
    ((J.handle A n (.relation a b q s)).run A c).1 ≠ .ok none ∧
    ((J.queryRelationEval A n a b q s).run A c).1 ≠ .ok none := by
  constructor
  · intro h
    exact Bool.noConfusion (((handle_relation_some A J n a b q s ha hb).outcome A SomeIfOk.error c) none h)
  · intro h
    have : CProg.Good (fun _ _ => True) (fun _ _ => True) SomeIfOk (J.queryRelationEval A n a b q s) := by
      unfold Joined.queryRelationEval
      refine (CProg.Good.any _).bind (fun _ _ => ?_) (fun _ _ _ h => by cases h)
      refine (handle_relation_some A J n a b q s ha hb).bind (fun o ho => ?_) (fun _ _ _ h => by cases h)
      obtain ⟨v, rfl⟩ := Option.isSome_iff_exists.1 (ho o rfl)
      exact CProg.Good.lift (fun o' ho' => evalOpt_isSome ho')
    exact Bool.noConfusion ((this.outcome A SomeIfOk.error c) none h)

/-- entity 2 of the demo world is not a `StatEntity`, whatever the cache contains; 0 and 1 are -/
example (c : Cache demo (BitVec 8) Nat) :
    (demoJoined.handle demoAddr 1 (.stat 2 demoQ (demoInt 0))).run demoAddr c = (.ok none, c) :=
  (C43_stat_unmarked demoAddr demoJoined 0 c 2 demoQ (demoInt 0) (by decide) rfl).1
example : ((demoJoined.handle demoAddr 1 (.stat 0 demoQ (demoInt 0))).run demoAddr []).1 =
    (.ok (some ⟨211, -2147483648, 2147483647, 1⟩) : Res (Option StatInt)) := rfl
example (c : Cache demo (BitVec 8) Nat) :
    (demoJoined.handle demoAddr 1 (.relation 0 2 demoQ (demoInt 0))).run demoAddr c = (.ok none, c) :=
  (C43_relation_unmarked demoAddr demoJoined 0 c 0 2 demoQ (demoInt 0) (by decide) (.inr rfl)).1
example (c : Cache demo (BitVec 8) Nat) :
    ((demoJoined.handle demoAddr 1 (.relation 0 1 demoQ (demoInt 0))).run demoAddr c).1 ≠ .ok none :=
  (C43_relation_marked demoAddr demoJoined 1 c 0 1 demoQ (demoInt 0) rfl rfl).1

end entities

/-! ### C45 -/

/-- C45: the children part of a query makes one call per listed child that matches the child query, stream by
stream and in list order, with the parent as `this` -/
theorem C45_children_calls (h : Handler E Q Ent) (e : Ent) (q : QualifierQuery Q) (p : Pair E) :
    J.children h e q p = callsCode h
      (J.child.leaves.flatMap fun st =>
        (((J.world.children e).getD []).filterMap st.query).map fun it => st.stream e it q) p :=
  J.children_eq h e q p

/-- C45: whatever the children are, the calls come last: after the default, the global relations, the
components and the relation components of the entity itself -/
theorem C45_children_last (h : Handler E Q Ent) (e : Ent) (q : QualifierQuery Q) (s : StatInst E) :
    J.compute A h e q s =
      (Joined.compute A { J with world := { J.world with children := fun _ => none } } h e q s).bind
        (callsCode h (J.child.leaves.flatMap fun st =>
          (((J.world.children e).getD []).filterMap st.query).map fun it => st.stream e it q)) := by
  simp only [Joined.compute_eq, Joined.statCalls, CProg.bind_assoc]
  congr 1
  funext v
  have : (J.child.leaves.flatMap fun st => st.calls e q ([] : List Ent)) = [] := by
    simp [CStream.calls]
  simp only [Option.getD_none, this, List.append_nil]
  rw [callsCode_append]
  rfl

/-- the code of a query, from its calls -/
theorem typed_stat_congr (w : World E Q Ent) (h : Handler E Q Ent) (e : Ent) (q : QualifierQuery Q)
    (s : StatInst E) (hd : w.defaults = J.world.defaults) (hca : w.cached = J.world.cached)
    (he : w.isStat e = J.world.isStat e)
    (hc : Joined.statCalls { J with world := w } e q = J.statCalls e q) :
    Joined.typed A { J with world := w } h (.stat e q s) = J.typed A h (.stat e q s) := by
  have h2 : w.startValue A s = J.world.startValue A s := by
    simp [World.startValue, World.registered, hd]
  have h3 : Joined.compute A { J with world := w } h e q s = J.compute A h e q s := by
    rw [Joined.compute_eq, Joined.compute_eq, hc]
    simp only [h2]
  have h4 : Joined.miss A { J with world := w } h e q s = J.miss A h e q s := by
    simp only [Joined.miss, h3, Joined.remember, hca]
  simp only [Joined.typed, Joined.queryStatErased, Joined.lookup, h4, hca, he]

/-- C45: so, however the questions of streams are answered (`h`), a query on `e` does the same in two worlds with the
same defaults, global relations and `e`'s own marker and list of children: neither grandchildren nor whether the
children are `StatEntity` matters -/
theorem C45_only_own_children (h : Handler E Q Ent) (w : World E Q Ent) (e : Ent) (q : QualifierQuery Q)
    (s : StatInst E) (hd : w.defaults = J.world.defaults) (hr : w.relations = J.world.relations)
    (hca : w.cached = J.world.cached) (he : w.isStat e = J.world.isStat e)
    (hc : w.children e = J.world.children e) :
    Joined.typed A { J with world := w } h (.stat e q s) = J.typed A h (.stat e q s) :=
  typed_stat_congr A J w h e q s hd hca he (by simp [Joined.statCalls, hr, hc])

theorem filterMap_filter_eq {β γ : Type} (f : β → Option γ) (keep : β → Bool) (l : List β)
    (h : ∀ x ∈ l, keep x = false → f x = none) : (l.filter keep).filterMap f = l.filterMap f := by
  induction l with
  | nil => rfl
  | cons x l ih =>
    have ih' := ih (fun y hy => h y (List.mem_cons_of_mem _ hy))
    cases hx : keep x with
    | true => simp [hx, List.filterMap_cons, ih']
    | false => simp [hx, ih', h x List.mem_cons_self hx]

/-- C45: children that match no child query may be removed from or added to the list -/
theorem C45_non_matching (h : Handler E Q Ent) (w : World E Q Ent) (e : Ent) (q : QualifierQuery Q)
    (s : StatInst E) (cs : List Ent) (keep : Ent → Bool) (hd : w.defaults = J.world.defaults)
    (hr : w.relations = J.world.relations) (hca : w.cached = J.world.cached)
    (he : w.isStat e = J.world.isStat e)
    (hc : J.world.children e = some cs) (hc' : w.children e = some (cs.filter keep))
    (hk : ∀ c ∈ cs, keep c = false → ∀ st ∈ J.child.leaves, st.query c = none) :
    Joined.typed A { J with world := w } h (.stat e q s) = J.typed A h (.stat e q s) := by
  have key : ∀ st ∈ J.child.leaves, st.calls e q (cs.filter keep) = st.calls e q cs := by
    intro st hst
    unfold CStream.calls
    rw [filterMap_filter_eq]
    exact fun x hx hkx => hk x hx hkx st hst
  refine typed_stat_congr A J w h e q s hd hca he ?_
  simp only [Joined.statCalls, hr, hc, hc', Option.getD_some]
  congr 1
  exact List.flatMap_congr key

/-- in the demo world child 3 does not match the child query and child 2 has a child of its own -/
example (h : Handler demo (BitVec 8) Nat) :
    Joined.typed demoAddr { demoJoined with world := { demoWorld with
      children := fun e => if e == 0 then some ([2, 3].filter (· == 2)) else none, isStat := fun _ => true } }
      h (.stat 0 demoQ (demoInt 0)) = demoJoined.typed demoAddr h (.stat 0 demoQ (demoInt 0)) :=
  C45_non_matching demoAddr demoJoined h _ 0 demoQ (demoInt 0) [2, 3] (· == 2) rfl rfl rfl rfl rfl rfl
    (by intro c hc hk st hst
        have : st = demoChild := by
          have h2 : demoJoined.child.leaves = [demoChild] := rfl
          rw [h2] at hst; exact List.mem_singleton.1 hst
        subst this
        simp at hc
        rcases hc with rfl | rfl
        · cases hk
        · rfl)
example : (demoJoined.child.leaves.flatMap fun st =>
    (((demoJoined.world.children 0).getD []).filterMap st.query)
      |>.map fun it => st.stream 0 it demoQ) = [demoAdd 200] := rfl

/-! ### C46 -/

/-- C46: a relation query on two `StatEntity` entities starts from the registered default, makes one call per
global relation with the placeholder entity, then one call per relation stream that both entities match, with
`(from, to)` in that order -/
theorem C46_relation_calls (h : Handler E Q Ent) (a b : Ent) (q : QualifierQuery Q) (s : StatInst E)
    (ha : J.world.isStat a = true) (hb : J.world.isStat b = true) :
    J.queryRelationErased A h a b q s =
      (CProg.lift (J.world.startValue A s)).bind fun v =>
        (callsCode h ((J.world.relations.getD []).map (fun g => g J.world.placeholder q)) ⟨s, v⟩).bind fun p =>
          (callsCode h (J.rel.leaves.flatMap fun st =>
            ((st.query a).toList.flatMap fun x => (st.query b).toList.map fun y => st.relation x y q)) p).bind
              fun p' => .ret (some p'.value) := by
  have hr : (fun st : CStream E Q Ent => st.relationCalls a b q) = fun st =>
      ((st.query a).toList.flatMap fun x => (st.query b).toList.map fun y => st.relation x y q) := by
    funext st
    unfold CStream.relationCalls
    cases st.query a <;> cases st.query b <;> simp
  rw [J.queryRelationErased_eq, ha, hb]
  simp only [Bool.and_self, if_true, Joined.relationCalls, callsCode_append, CProg.bind_assoc, hr]

/-- C46: relation queries involve neither component streams nor children nor the cache: they come to the same
code when these are replaced, and with answers that do not touch the cache the cache is neither read nor
written -/
theorem C46_independent (h : Handler E Q Ent) (a b : Ent) (q : QualifierQuery Q) (s : StatInst E)
    (comp child : Streams E Q Ent) (cached : Bool) (children : Ent → Option (List Ent)) :
    Joined.typed A ⟨{ J.world with cached := cached, children := children }, comp, child, J.rel⟩ h
      (.relation a b q s) = J.typed A h (.relation a b q s) := by
  simp only [Joined.typed, Joined.queryRelationErased_eq]
  rfl

/-- code that neither reads the cache nor stores anything in it -/
def CProg.Pure : CProg E Q Ent α → Prop
  | .ret _ => True
  | .fail _ => True
  | .get _ _ => False
  | .put _ _ _ => False
  | .clear f => f.Pure

theorem CProg.Pure.lift (r : Res α) : (CProg.lift r : CProg E Q Ent α).Pure := by
  cases r <;> trivial

theorem CProg.Pure.bind {β : Type} {x : CProg E Q Ent α} {f : α → CProg E Q Ent β} (hx : x.Pure)
    (hf : ∀ a, (f a).Pure) : (x.bind f).Pure := by
  induction x with
  | ret a => exact hf a
  | fail e => trivial
  | get _ _ => exact hx.elim
  | put _ _ _ => exact hx.elim
  | clear g ih => exact ih hx

theorem CProg.Pure.attempt {x : CProg E Q Ent α} (hx : x.Pure) : x.attempt.Pure := by
  induction x with
  | ret a => trivial
  | fail e => cases e <;> trivial
  | get _ _ => exact hx.elim
  | put _ _ _ => exact hx.elim
  | clear g ih => exact ih hx

theorem Prog.interp_pure {h : Handler E Q Ent} (hh : ∀ r, (h r).Pure) (p : Prog E Q Ent α) (hp : p.NoStore) :
    (p.interp h).Pure := by
  induction p with
  | ret a => trivial
  | fail e => trivial
  | ask r k ih => exact (hh r).bind fun x => ih x (hp x)
  | attempt r k ih => exact (hh r).attempt.bind fun x => ih x (hp x)
  | clear k ih => exact ih hp
  | store e q p k ih => exact hp.elim

theorem callsCode_pure {h : Handler E Q Ent} (hh : ∀ r, (h r).Pure) (l : List (Call E Q Ent)) (p : Pair E)
    (hl : ∀ c ∈ l, ∀ p, (c p).NoStore) : (callsCode h l p).Pure := by
  induction l generalizing p with
  | nil => trivial
  | cons c l ih =>
    exact (Prog.interp_pure hh _ (hl c List.mem_cons_self p)).bind fun p' =>
      ih p' fun c hc => hl c (List.mem_cons_of_mem _ hc)

/-- C46: a relation query neither reads the cache nor stores anything in it, unless its streams do so themselves -/
theorem C46_no_cache_access (h : Handler E Q Ent) (hh : ∀ r, (h r).Pure) (a b : Ent) (q : QualifierQuery Q)
    (s : StatInst E) (hq : ∀ c ∈ J.relationCalls a b q, ∀ p, (c p).NoStore) :
    (J.typed A h (.relation a b q s)).Pure := by
  simp only [Joined.typed, Joined.queryRelationErased_eq, CProg.bind_eq]
  refine CProg.Pure.bind (CProg.Pure.lift _) fun _ => ?_
  refine CProg.Pure.bind ?_ fun _ => CProg.Pure.lift _
  split
  · refine CProg.Pure.bind (CProg.Pure.lift _) fun _ => ?_
    exact CProg.Pure.bind (callsCode_pure hh _ _ hq) fun _ => trivial
  · trivial

/-- both entities match, one does not -/
example : (demoRel.relationCalls 1 0 demoQ, demoRel.relationCalls 1 2 demoQ) =
    ([demoAdd 1000], []) := rfl
example (h : Handler demo (BitVec 8) Nat) :
    Joined.typed demoAddr ⟨{ demoWorld with cached := false }, .unit, .unit, demoJoined.rel⟩ h
      (.relation 1 0 demoQ (demoInt 0)) = demoJoined.typed demoAddr h (.relation 1 0 demoQ (demoInt 0)) :=
  C46_independent demoAddr demoJoined h 1 0 demoQ (demoInt 0) .unit .unit false demoWorld.children
/-- the noop querier touches no cache -/
example (r : Req demo (BitVec 8) Nat) : (noop r).Pure := by
  cases r with
  | stat e q s => exact CProg.Pure.bind (CProg.Pure.lift _) fun _ => CProg.Pure.lift _
  | relation a b q s => exact CProg.Pure.bind (CProg.Pure.lift _) fun _ => CProg.Pure.lift _
  | attr e a => trivial

/-! ### C47 -/

/-- the sources that report attribute `a` on `e`, given answers to the questions they ask -/
def Reports (o : Oracle E Q Ent) (st : CStream E Q Ent) (e x : Ent) (a : String) : Prop :=
  ∃ it, st.query x = some it ∧ (st.attr e it a).eval o = .ok true

theorem anyCalls_iff (o : Oracle E Q Ent) (l : List (Prog E Q Ent Bool)) {b : Bool}
    (h : anyCalls o l = .ok b) (hok : ∀ c ∈ l, ∃ y, c.eval o = .ok y) :
    b = true ↔ ∃ c ∈ l, c.eval o = .ok true := by
  induction l with
  | nil => cases h; simp
  | cons c l ih =>
    obtain ⟨y, hy⟩ := hok c List.mem_cons_self
    simp only [anyCalls, hy, Res.bind_ok] at h
    cases y with
    | true => cases h; simp [hy]
    | false =>
      rw [ih h (fun c hc => hok c (List.mem_cons_of_mem _ hc))]
      simp [hy]

theorem anyCalls_total (o : Oracle E Q Ent) (l : List (Prog E Q Ent Bool))
    (hok : ∀ c ∈ l, ∃ y, c.eval o = .ok y) : ∃ b, anyCalls o l = .ok b := by
  induction l with
  | nil => exact ⟨false, rfl⟩
  | cons c l ih =>
    obtain ⟨y, hy⟩ := hok c List.mem_cons_self
    simp only [anyCalls, hy, Res.bind_ok]
    cases y with
    | true => exact ⟨true, rfl⟩
    | false => exact ih (fun c hc => hok c (List.mem_cons_of_mem _ hc))

/-- C47: `has_attribute` is true exactly when a component or relation stream matching the entity reports the
attribute, or a children stream matching a child does and the entity is a `StatEntity`.  `o` are the answers
to nested questions; all sources are supposed to return (else the outcome depends on the order in which they
are asked). -/
theorem C47_has_attribute (n : Nat) (e : Ent) (a : String)
    (hok : ∀ c ∈ J.attrCalls e a, ∃ y, c.eval (J.answer A n) = .ok y) :
    ∃ b : Bool, J.answer A (n + 1) (.attr e a) = (.ok b : Res Bool) ∧
      (b = true ↔
        (∃ st ∈ J.comp.leaves ++ J.rel.leaves, Reports (J.answer A n) st e e a) ∨
        (J.world.isStat e = true ∧ ∃ cs, J.world.children e = some cs ∧
          ∃ st ∈ J.child.leaves, ∃ x ∈ cs, Reports (J.answer A n) st e x a)) := by
  obtain ⟨b, hb⟩ := anyCalls_total (J.answer A n) (J.attrCalls e a) hok
  refine ⟨b, ?_, ?_⟩
  · rw [J.answer_succ]; exact hb
  rw [anyCalls_iff _ _ hb hok]
  have hmem : ∀ (S : List (CStream E Q Ent)) (es : List Ent) (c : Prog E Q Ent Bool),
      c ∈ S.flatMap (fun st => st.attrCalls e a es) ↔
        ∃ st ∈ S, ∃ x ∈ es, ∃ it, st.query x = some it ∧ st.attr e it a = c := by
    intro S es c
    simp only [List.mem_flatMap, CStream.attrCalls, List.mem_map, List.mem_filterMap]
    constructor
    · rintro ⟨st, hst, it, ⟨x, hx, hq⟩, rfl⟩
      exact ⟨st, hst, x, hx, it, hq, rfl⟩
    · rintro ⟨st, hst, x, hx, it, hq, rfl⟩
      exact ⟨st, hst, it, ⟨x, hx, hq⟩, rfl⟩
  constructor
  · rintro ⟨c, hc, hv⟩
    simp only [Joined.attrCalls, List.mem_append] at hc
    rcases hc with (hc | hc) | hc
    · obtain ⟨st, hst, x, hx, it, hq, rfl⟩ := (hmem _ _ _).1 hc
      cases List.mem_singleton.1 hx
      exact .inl ⟨st, List.mem_append_left _ hst, it, hq, hv⟩
    · obtain ⟨st, hst, x, hx, it, hq, rfl⟩ := (hmem _ _ _).1 hc
      cases List.mem_singleton.1 hx
      exact .inl ⟨st, List.mem_append_right _ hst, it, hq, hv⟩
    · cases he : J.world.isStat e with
      | false => rw [he] at hc; cases hc
      | true =>
        rw [he, if_pos rfl] at hc
        obtain ⟨st, hst, x, hx, it, hq, rfl⟩ := (hmem _ _ _).1 hc
        cases hcs : J.world.children e with
        | none => rw [hcs] at hx; cases hx
        | some cs =>
          rw [hcs] at hx
          exact .inr ⟨rfl, cs, rfl, st, hst, x, hx, it, hq, hv⟩
  · rintro (⟨st, hst, it, hq, hv⟩ | ⟨he, cs, hcs, st, hst, x, hx, it, hq, hv⟩)
    · refine ⟨_, ?_, hv⟩
      simp only [Joined.attrCalls, List.mem_append]
      rcases List.mem_append.1 hst with hst | hst
      · exact .inl (.inl ((hmem _ _ _).2 ⟨st, hst, e, List.mem_singleton_self e, it, hq, rfl⟩))
      · exact .inl (.inr ((hmem _ _ _).2 ⟨st, hst, e, List.mem_singleton_self e, it, hq, rfl⟩))
    · refine ⟨_, ?_, hv⟩
      simp only [Joined.attrCalls, List.mem_append, he, if_true, hcs, Option.getD_some]
      exact .inr ((hmem _ _ _).2 ⟨st, hst, x, hx, it, hq, rfl⟩)

/-- in the demo world no source fails; 1 has the attribute "one" itself, 0 has "two" through its child, 2 has
neither although its child's query would match: it is not a `StatEntity` -/
example : demoJoined.answer demoAddr 1 (.attr 1 "one") = (.ok true : Res Bool) := rfl
example : demoJoined.answer demoAddr 1 (.attr 0 "two") = (.ok true : Res Bool) := rfl
example : demoJoined.answer demoAddr 1 (.attr 0 "one") = (.ok false : Res Bool) := rfl
example (n : Nat) : ∀ c ∈ demoJoined.attrCalls 0 "two", ∃ y, c.eval (demoJoined.answer demoAddr n) = .ok y := by
  have : demoJoined.attrCalls 0 "two" = [.ret false, .ret false, .ret true] := rfl
  rw [this]
  simp [Prog.eval]

/-! ### C52 -/

/-- register global relations one after another -/
def Resources.registerAll {G : Type} (w : Resources E Q Ent G) : List G → Resources E Q Ent G
  | [] => w
  | g :: gs => (w.registerStatRelation g).registerAll gs

theorem Resources.registerAll_relations {G : Type} (w : Resources E Q Ent G) (gs : List G) :
    (w.registerAll gs).relations.getD [] = w.relations.getD [] ++ gs := by
  induction gs generalizing w with
  | nil => simp [Resources.registerAll]
  | cons g gs ih => rw [Resources.registerAll, ih]; simp [Resources.registerStatRelation]

/-- C52: in a world where the relations `gs` were registered one after another, an uncached stat query first
calls each of them once, in that order, and only then the other sources, as they would run in a world
without global relations -/
theorem C52_registration_order (w : Resources E Q Ent (GStream E Q Ent)) (gs : List (GStream E Q Ent))
    (hw : w.relations = none) (hJ : J.world.relations = (w.registerAll gs).relations)
    (h : Handler E Q Ent) (e : Ent) (q : QualifierQuery Q) (s : StatInst E) :
    J.compute A h e q s =
      (CProg.lift (J.world.startValue A s)).bind fun v =>
        (callsCode h (gs.map fun g => g e q) ⟨s, v⟩).bind
          (callsCode h (Joined.statCalls { J with world := { J.world with relations := none } } e q)) := by
  have : J.world.relations.getD [] = gs := by rw [hJ, Resources.registerAll_relations, hw]; rfl
  rw [J.compute_eq]
  congr 1
  funext v
  simp only [Joined.statCalls, this, Option.getD_none, List.map_nil, List.nil_append, List.append_assoc]
  rw [callsCode_append]

/-- C52: with none registered they contribute nothing, whether or not the resource exists -/
theorem C52_none_registered (h : Handler E Q Ent) (e : Ent) (q : QualifierQuery Q) (p : Pair E)
    (hJ : J.world.relations.getD [] = []) : J.globals h e q p = .ret p := by
  rw [J.globals_eq, hJ]; rfl

/-- two relations registered in an empty app -/
def demoTwo : Resources demo (BitVec 8) Nat (GStream demo (BitVec 8) Nat) :=
  Resources.registerAll ⟨none, none, none, none⟩ [fun _ _ => demoAdd 1, fun _ _ => demoAdd 2]
def demoTwoJoined : Joined demo (BitVec 8) Nat :=
  { demoJoined with world := { demoWorld with relations := demoTwo.relations } }

example (h : Handler demo (BitVec 8) Nat) : demoTwoJoined.compute demoAddr h 1 demoQ (demoInt 0) =
      (CProg.lift (demoWorld.startValue demoAddr (demoInt 0))).bind fun v =>
        (callsCode h [demoAdd 1, demoAdd 2] ⟨demoInt 0, v⟩).bind (callsCode h [demoAdd 10, fun p => .ret p]) :=
  C52_registration_order demoAddr demoTwoJoined ⟨none, none, none, none⟩
    [fun _ _ => demoAdd 1, fun _ _ => demoAdd 2] rfl rfl h 1 demoQ (demoInt 0)

section
variable [DecidableEq Q] [DecidableEq Ent]

/-- C52: a cached result is returned without running any source -/
theorem C52_cached (n : Nat) (c : Cache E Q Ent) (e : Ent) (q : QualifierQuery Q) (s : StatInst E) (v : s.Val)
    (hs : Storable (E.layout s.ty)) (he : J.world.isStat e = true) (hc : J.world.cached = true)
    (hv : HMap.get (CacheKey.eq A) c ⟨e, q, s⟩ = some (.val s.ty v)) :
    (J.handle A (n + 1) (.stat e q s)).run A c = (.ok (some v), c) := by
  change ((CProg.lift (validate (E.layout s.ty))).bind (fun _ => _)).run A c = _
  rw [validate_eq, if_pos hs, CProg.lift_ok, CProg.bind_ret]
  simp only [Joined.queryStatErased, he, if_true, Joined.lookup, hc, CProg.bind_eq, CProg.bind_get,
    CProg.run_get, hv, Defaults.cloned, vtClone_val hs, Res.bind_ok, CProg.lift_ok, CProg.bind_ret,
    StatMap.readAs, Buf.read_val hs]
  rfl

end

example (v : StatInt) :
    (demoJoined.handle demoAddr 1 (.stat 0 demoQ (demoInt 0))).run demoAddr
      [(⟨0, demoQ, demoInt 0⟩, .val true v)] =
    (.ok (some v), [(⟨0, demoQ, demoInt 0⟩, .val true v)]) :=
  C52_cached demoAddr demoJoined 0 _ 0 demoQ (demoInt 0) v (by decide) rfl rfl rfl

/-! ### C59 -/

/-- C59: the noop querier answers `None` to each stat or relation query of a storable stat, and `false` to
each attribute query -/
theorem C59_noop (e a b : Ent) (q : QualifierQuery Q) (s : StatInst E) (t : String)
    (hs : Storable (E.layout s.ty)) :
    (noop (.stat e q s) : CProg E Q Ent _) = .ret none ∧
    (noop (.relation a b q s) : CProg E Q Ent _) = .ret none ∧
    (noop (.attr e t) : CProg E Q Ent _) = .ret false := by
  refine ⟨?_, ?_, rfl⟩ <;>
  · simp only [noop, validate_eq, if_pos hs]
    rfl

/-- C59: whatever querier and entity a `StatMap` is run with, and whatever is cached, it comes to the value of
`StatMap.queryStat`, which depends on the map alone -/
theorem C59_independent [QualifierFlag Q] (m : StatMap E Q) (h : Handler E Q Ent) (e : Ent)
    (q : QualifierQuery Q) (s : StatInst E) :
    m.queryStatAt A h e q s = CProg.lift (m.queryStat A q s) := by
  unfold StatMap.queryStatAt StatMap.queryStat StatMap.asStream
  cases Pair.newDefault s with
  | error e => rfl
  | ok p =>
    change ((Prog.lift (m.streamStat A q p)).interp h).bind _ = CProg.lift (m.streamStat A q p >>= _)
    cases m.streamStat A q p <;> rfl

end BSQ
