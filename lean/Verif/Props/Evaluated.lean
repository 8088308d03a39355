import Verif.Spec.Evaluated
import Verif.Props.Cache
import Verif.Props.Base
import Verif.Props.CrateTest
/-!
# C140: evaluated queries
-/
set_option linter.unusedSectionVars false
namespace BSQ
variable {E : Env} {Q Ent : Type} [DecidableEq Q] [DecidableEq Ent] (A : Addr E) (J : Joined E Q Ent)

theorem evaluates_evalOpt {V : Type} (D : StatValue V) (r : Res (Option V)) : Evaluates D r (r >>= StatMap.evalOpt D) := by
  match r with
  | .error e => exact .failed e
  | .ok none => exact .none
  | .ok (some v) =>
    change Evaluates D _ (D.eval v >>= fun x => .ok (some x))
    cases h : D.eval v with
    | error e => exact .evalFails v e h
    | ok x => exact .value v x h

theorem Evaluates.unique {V : Type} {D : StatValue V} {r : Res (Option V)} {x y : Res (Option D.Out)}
    (hx : Evaluates D r x) (hy : Evaluates D r y) : x = y := by
  cases hx <;> cases hy <;> simp_all

theorem evalCode_run {V : Type} (D : StatValue V) (l : Layout) (x : CProg E Q Ent (Option V)) (c : Cache E Q Ent)
    (h : ¬ Storable l → x = .fail .panic) :
    ((CProg.lift (validate l)).bind fun _ => x.bind fun o => CProg.lift (StatMap.evalOpt D o)).run A c =
      ((x.run A c).1 >>= StatMap.evalOpt D, (x.run A c).2) := by
  rw [validate_eq]
  by_cases hs : Storable l
  · rw [if_pos hs, CProg.lift_ok, CProg.bind_ret, CProg.run_bind]
    rcases h : x.run A c with ⟨r, c'⟩
    cases r with
    | error e => rfl
    | ok o => simp only [CProg.run_lift]; rfl
  · rw [if_neg hs, h hs]; rfl

/-- C140: with whatever cache, `query_eval` evaluates exactly what `query_stat` returns, and leaves in the cache exactly
what `query_stat` leaves there, even if the evaluation panics -/
theorem C140_stat (n : Nat) (c : Cache E Q Ent) (e : Ent) (q : QualifierQuery Q) (s : StatInst E) :
    Evaluates s.sv ((J.handle A (n + 1) (.stat e q s)).run A c).1 ((J.queryEval A (n + 1) e q s).run A c).1 ∧
    ((J.queryEval A (n + 1) e q s).run A c).2 = ((J.handle A (n + 1) (.stat e q s)).run A c).2 := by
  have h := evalCode_run A s.sv (E.layout s.ty) (J.handle A (n + 1) (.stat e q s)) c (fun hs => by
    change (CProg.lift (validate (E.layout s.ty))).bind (fun _ => _) = _
    rw [validate_eq, if_neg hs]; rfl)
  have h' : (J.queryEval A (n + 1) e q s).run A c = _ := h
  rw [h']
  exact ⟨evaluates_evalOpt _ _, rfl⟩

/-- C140: the same for `query_relation_eval` and `query_relation` -/
theorem C140_relation (n : Nat) (c : Cache E Q Ent) (a b : Ent) (q : QualifierQuery Q) (s : StatInst E) :
    Evaluates s.sv ((J.handle A (n + 1) (.relation a b q s)).run A c).1 ((J.queryRelationEval A (n + 1) a b q s).run A c).1 ∧
    ((J.queryRelationEval A (n + 1) a b q s).run A c).2 = ((J.handle A (n + 1) (.relation a b q s)).run A c).2 := by
  have h := evalCode_run A s.sv (E.layout s.ty) (J.handle A (n + 1) (.relation a b q s)) c (fun hs => by
    change (CProg.lift (validate (E.layout s.ty))).bind (fun _ => _) = _
    rw [validate_eq, if_neg hs]; rfl)
  have h' : (J.queryRelationEval A (n + 1) a b q s).run A c = _ := h
  rw [h']
  exact ⟨evaluates_evalOpt _ _, rfl⟩

/-- C140: after any queries and clears, an evaluated query evaluates what the query comes to without a cache, unless that
exceeds the recursion depth -/
theorem C140_cached (hJ : J.Right A) (evs : List (Event E Q Ent)) (hev : ∀ ev ∈ evs, ev.isQuery = true ∨ ev = .clear)
    (n : Nat) (e b : Ent) (q : QualifierQuery Q) (s : StatInst E) :
    (J.answer A (n + 1) (.stat e q s) ≠ .error .fuel → Evaluates s.sv (J.answer A (n + 1) (.stat e q s))
      ((J.queryEval A (n + 1) e q s).run A (history A J [] evs).2).1) ∧
    (J.answer A (n + 1) (.relation e b q s) ≠ .error .fuel → Evaluates s.sv (J.answer A (n + 1) (.relation e b q s))
      ((J.queryRelationEval A (n + 1) e b q s).run A (history A J [] evs).2).1) := by
  have hv : ∀ (evs : List (Event E Q Ent)) (c : Cache E Q Ent), (∀ ev ∈ evs, ev.isQuery = true ∨ ev = .clear) →
      CacheValid A J c → CacheValid A J (history A J c evs).2 := by
    intro evs
    induction evs with
    | nil => exact fun c _ h => h
    | cons ev evs ih =>
      intro c hev hc
      have hev' := fun x hx => hev x (List.mem_cons_of_mem ev hx)
      cases ev with
      | query m r => exact ih _ hev' (hJ.run_valid hc m r).2
      | clear =>
        simp only [history, hc.typed.clear]
        exact ih [] hev' (fun x hx => by cases hx)
      | change J' =>
        rcases hev _ List.mem_cons_self with h | h
        · cases h
        · cases h
  have hc := hv evs [] hev (fun x hx => by cases hx)
  constructor
  · intro h
    have := (hJ.run_valid hc (n + 1) (.stat e q s)).1.1 h
    exact this ▸ (C140_stat A J n _ e q s).1
  · intro h
    have := (hJ.run_valid hc (n + 1) (.relation e b q s)).1.1 h
    exact this ▸ (C140_relation A J n _ e b q s).1

open CrateTest

namespace CrateTest
variable (A : Addr env) (has : Ent → Bool) (w : World env Q Ent)

theorem add_defined (v : StatIntPercentAdditive) (a : Int) (st : Unit) :
    ((sv true).add v a >>= fun v => .ok (st, v)) ≠ (.error .ub : Res (Unit × StatIntPercentAdditive)) := by
  change ((NumTy.fit _ (v.addend + a) >>= fun addend => Except.ok { v with addend := addend }) >>= fun v => .ok (st, v)) ≠ _
  unfold NumTy.fit
  split
  · exact fun h => by cases h
  · exact fun h => by cases h

theorem safe (hr : w.relations = none) (hd : w.defaults = none) : (querier A has w).Safe A where
  globals := by simp [Joined.withChildren, World.withComponent, hr]
  streams := by
    intro st hst e it _ this q
    simp [Joined.withChildren, World.withComponent, Streams.leaves] at hst
    subst hst
    exact C139_safe A arms () (by
      intro a ha
      simp only [arms, List.mem_cons, List.not_mem_nil, or_false] at ha
      rcases ha with rfl | rfl | rfl | rfl | rfl | rfl
      · exact fun st v => add_defined v _ st
      · exact fun st v => add_defined v _ st
      · exact fun st x v => add_defined v _ st
      · exact fun st v h => by cases h
      · exact fun st v h => by cases h
      · exact fun st x v h => by cases h) (fun T i h => by cases h)
  relations := by simp [Joined.withChildren, World.withComponent, Streams.leaves]
  attrs := by
    intro st hst e it _ this a
    simp [Joined.withChildren, World.withComponent, Streams.leaves] at hst
    subst hst
    exact fun h => by cases h
  defaults := by simp [Joined.withChildren, World.withComponent, hd]

theorem noStore (hr : w.relations = none) : (querier A has w).NoStore := by
  refine .of_streams (by simp [Joined.withChildren, World.withComponent, hr]) ?_
    (by simp [Joined.withChildren, World.withComponent, Streams.leaves]) ?_
  · intro st hst e it _ this q p
    simp [Joined.withChildren, World.withComponent, Streams.leaves] at hst
    subst hst
    change Prog.NoStore (Prog.lift _)
    cases (matchStat A none arms () p >>= fun r => .ok r.2 : Res (Pair env)) <;> trivial
  · intro st hst e it _ this a
    simp [Joined.withChildren, World.withComponent, Streams.leaves] at hst
    subst hst
    trivial

theorem eval_int (a : Int) (h0 : 0 ≤ a) :
    (sv true).eval { addend := a, mult := 0, min := -2147483648, max := 2147483647 } =
      if a * 100 ≤ 2147483647 then .ok a else .error .panic := by
  by_cases h : a * 100 ≤ 2147483647
  · rw [if_pos h]
    exact (C30_int_percent_additive_partial ⟨.i32, .prim, .debug⟩ (by decide) .truncate 100 a (by decide) (by decide) rfl
      ⟨le_trans (b := 0) (by decide) (by omega), h⟩ (fun h => by cases h) (fun h => by cases h)).1
  · rw [if_neg h]
    have hm : NumTy.mul ⟨.i32, .prim, .debug⟩ a 100 = .error .panic := by
      unfold NumTy.mul NumTy.fit
      rw [if_neg (fun h' => h h'.2)]
      rfl
    change (NumTy.mul ⟨.i32, .prim, .debug⟩ a 100 >>= _) = _
    rw [hm]
    rfl
end CrateTest

/-- C140: `query_eval` with the test stream on components and children, after whatever queries, with or without a cache: the
sum of the amounts for `IntStat`, as long as a hundred times the sum fits in `i32`, otherwise a panic; for `FlagsStat` the
flags that are switched on and not off -/
theorem C140_crate (A : Addr env) (has : Ent → Bool) (w : World env Q Ent) (hr : w.relations = none)
    (hd : w.defaults = none) (evs : List (Event env Q Ent)) (hev : ∀ ev ∈ evs, ev.isQuery = true ∨ ev = .clear)
    (n : Nat) (e : Ent) (he : w.isStat e = true) (q : QualifierQuery Q) (x : Fin 4) :
    (((querier A has w).queryEval A (n + 1) e q (intStat x)).run A (history A (querier A has w) [] evs).2).1 =
      (if sources w has e * amount x * 100 ≤ 2147483647 then .ok (some (sources w has e * amount x : Int))
       else .error .panic : Res (Option Int)) ∧
    (((querier A has w).queryEval A (n + 1) e q (flagsStat x)).run A (history A (querier A has w) [] evs).2).1 =
      (.ok (some (if sources w has e = 0 then 0 else ![1, 0, 2, 3] x)) : Res (Option (BitVec 32))) := by
  have hR := ((CrateTest.safe A has w hr hd).honest (CrateTest.noStore A has w hr)).right
  have hpos : 0 ≤ amount x := by revert x; decide
  have hk : (0 : Int) ≤ sources w has e * amount x := by positivity
  constructor
  · have h := C139_crate_int A has w hr hd n e he q x
    have h2 := (C140_cached A _ hR evs hev n e e q (intStat x)).1 (by rw [h]; split <;> exact fun h => by cases h)
    rw [h] at h2
    by_cases h3 : sources w has e * amount x * 100 ≤ 2147483647
    · rw [if_pos (by omega)] at h2
      rw [if_pos h3]
      exact h2.unique (.value _ _ ((eval_int _ hk).trans (if_pos h3)))
    · rw [if_neg h3]
      split at h2
      · exact h2.unique (.evalFails _ _ ((eval_int _ hk).trans (if_neg h3)))
      · exact h2.unique (.failed _)
  · have h := C139_crate_flags A has w hr hd n e he q x
    have h2 := (C140_cached A _ hR evs hev n e e q (flagsStat x)).1 (by rw [h]; exact fun h => by cases h)
    rw [h] at h2
    have hev : (sv false).eval (if sources w has e = 0 then ⟨0, 0⟩ else flags x) =
        .ok (if sources w has e = 0 then 0 else ![1, 0, 2, 3] x) := by
      by_cases hz : sources w has e = 0
      · rw [if_pos hz, if_pos hz]; rfl
      · rw [if_neg hz, if_neg hz]; fin_cases x <;> rfl
    exact h2.unique (.value _ _ hev)

/-- the hypotheses hold with any number of sources; from 21474837 on, for `A`, `query_stat` returns a value, but `query_eval`
panics -/
example (k : Nat) : ∃ w : World env Nat Nat, w.relations = none ∧ w.defaults = none ∧ w.isStat 0 = true ∧
    sources w (fun e => e != 0) 0 = k :=
  ⟨{ isStat := fun _ => true, children := fun _ => some (List.replicate k 1), defaults := none,
     relations := none, cached := true, placeholder := 99 }, rfl, rfl, rfl, by simp [sources, List.countP_replicate]⟩

end BSQ
