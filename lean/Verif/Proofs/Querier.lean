import Verif.Spec.Querier
import Verif.Proofs.CProg
import Verif.Props.Plugin
/-! # Querier code as flat lists of calls; determinism and monotonicity in the recursion depth -/
namespace BSQ
variable {E : Env} {Q Ent α : Type}

/-! ### flat lists of calls -/

theorem CProg.attempt_cold (x : CProg E Q Ent α) : x.attempt.cold = x.cold.attempt := by
  induction x with
  | ret a => rfl
  | fail e => cases e <;> rfl
  | get k f ih => exact ih none
  | put k b f ih => exact ih
  | clear f ih => exact ih

theorem Prog.interp_cold (h : Handler E Q Ent) (p : Prog E Q Ent α) :
    (p.interp h).cold = p.eval (fun r => (h r).cold) := by
  induction p with
  | ret a => rfl
  | fail e => rfl
  | ask r k ih => simp [Prog.interp, Prog.eval, ih]
  | attempt r k ih => simp [Prog.interp, Prog.eval, ih, CProg.attempt_cold]
  | clear k ih => exact ih
  | store e q s k ih => simp [Prog.interp, Prog.eval, CProg.cachePair, ih]

theorem callsCode_append (h : Handler E Q Ent) (l m : List (Call E Q Ent)) (p : Pair E) :
    callsCode h (l ++ m) p = (callsCode h l p).bind (callsCode h m) := by
  induction l generalizing p with
  | nil => rfl
  | cons c l ih => simp [callsCode, CProg.bind_assoc, ih]

theorem callsCode_cold (h : Handler E Q Ent) (l : List (Call E Q Ent)) (p : Pair E) :
    (callsCode h l p).cold = runCalls (fun r => (h r).cold) l p := by
  induction l generalizing p with
  | nil => rfl
  | cons c l ih => simp [callsCode, runCalls, Prog.interp_cold, ih]

theorem runCalls_append (o : Oracle E Q Ent) (l m : List (Call E Q Ent)) (p : Pair E) :
    runCalls o (l ++ m) p = (runCalls o l p >>= runCalls o m) := by
  induction l generalizing p with
  | nil => rfl
  | cons c l ih =>
    simp only [List.cons_append, runCalls]
    cases (c p).eval o with
    | ok a => simp [ih]
    | error e => rfl

theorem CStream.streamMany_eq (h : Handler E Q Ent) (st : CStream E Q Ent) (e : Ent) (q : QualifierQuery Q)
    (es : List Ent) (p : Pair E) : st.streamMany h e q es p = callsCode h (st.calls e q es) p := by
  induction es generalizing p with
  | nil => rfl
  | cons x es ih =>
    unfold CStream.streamMany CStream.calls
    cases hx : st.query x with
    | none => rw [List.filterMap_cons_none hx, ih]; rfl
    | some it =>
      rw [List.filterMap_cons_some hx]
      simp only [List.map_cons, callsCode, CProg.bind_eq]
      congr
      funext p'
      exact ih p'

theorem Streams.stream_eq (h : Handler E Q Ent) (t : Streams E Q Ent) (e : Ent) (es : List Ent)
    (q : QualifierQuery Q) (p : Pair E) :
    t.stream h e es q p = callsCode h (t.leaves.flatMap (fun st => st.calls e q es)) p := by
  induction t generalizing p with
  | unit => rfl
  | pair l r ihl ihr =>
    simp only [Streams.stream, Streams.leaves, List.flatMap_append, callsCode_append, ihl, CProg.bind_eq]
    congr
    funext p'
    exact ihr p'
  | cx st => simp [Streams.stream, Streams.leaves, CStream.streamMany_eq]

theorem CStream.runRelation_eq (h : Handler E Q Ent) (st : CStream E Q Ent) (a b : Ent)
    (q : QualifierQuery Q) (p : Pair E) :
    st.runRelation h a b q p = callsCode h (st.relationCalls a b q) p := by
  unfold CStream.runRelation CStream.relationCalls
  cases st.query a with
  | none => rfl
  | some x =>
    cases st.query b with
    | none => rfl
    | some y =>
      simp only [callsCode]
      exact (CProg.bind_ret_right _).symm

theorem Streams.relation_eq (h : Handler E Q Ent) (t : Streams E Q Ent) (a b : Ent)
    (q : QualifierQuery Q) (p : Pair E) :
    t.relation h a b q p = callsCode h (t.leaves.flatMap (fun st => st.relationCalls a b q)) p := by
  induction t generalizing p with
  | unit => rfl
  | pair l r ihl ihr =>
    simp only [Streams.relation, Streams.leaves, List.flatMap_append, callsCode_append, ihl, CProg.bind_eq]
    congr
    funext p'
    exact ihr p'
  | cx st => simp [Streams.relation, Streams.leaves, CStream.runRelation_eq]

theorem runGlobals_eq (h : Handler E Q Ent) (e : Ent) (q : QualifierQuery Q) (gs : List (GStream E Q Ent))
    (p : Pair E) : runGlobals h e q gs p = callsCode h (gs.map (fun g => g e q)) p := by
  induction gs generalizing p with
  | nil => rfl
  | cons g gs ih =>
    simp only [runGlobals, List.map_cons, callsCode, CProg.bind_eq]
    congr
    funext p'
    exact ih p'

theorem anyCode_append (h : Handler E Q Ent) (l m : List (Prog E Q Ent Bool)) :
    anyCode h (l ++ m) = (anyCode h l).bind fun b => if b then .ret true else anyCode h m := by
  induction l with
  | nil => rfl
  | cons c l ih =>
    simp only [List.cons_append, anyCode, CProg.bind_assoc, ih]
    congr
    funext b
    cases b <;> simp

theorem CStream.attrMany_eq (h : Handler E Q Ent) (st : CStream E Q Ent) (e : Ent) (a : String)
    (es : List Ent) : st.attrMany h e a es = anyCode h (st.attrCalls e a es) := by
  induction es with
  | nil => rfl
  | cons x es ih =>
    unfold CStream.attrMany CStream.attrCalls
    cases hx : st.query x with
    | none => rw [List.filterMap_cons_none hx, ih]; rfl
    | some it =>
      rw [List.filterMap_cons_some hx]
      simp only [List.map_cons, anyCode, CProg.bind_eq, ih]
      rfl

theorem Streams.hasAttribute_eq (h : Handler E Q Ent) (t : Streams E Q Ent) (e : Ent) (es : List Ent)
    (a : String) :
    t.hasAttribute h e es a = anyCode h (t.leaves.flatMap (fun st => st.attrCalls e a es)) := by
  induction t with
  | unit => rfl
  | pair l r ihl ihr =>
    simp only [Streams.hasAttribute, Streams.leaves, List.flatMap_append, anyCode_append, ihl, ihr, CProg.bind_eq]
  | cx st => simp [Streams.hasAttribute, Streams.leaves, CStream.attrMany_eq]

namespace Joined
variable (A : Addr E) (J : Joined E Q Ent) (h : Handler E Q Ent)

theorem globals_eq (e : Ent) (q : QualifierQuery Q) (p : Pair E) :
    J.globals h e q p = callsCode h ((J.world.relations.getD []).map (fun g => g e q)) p := by
  unfold globals
  cases J.world.relations with
  | none => rfl
  | some gs => exact runGlobals_eq h e q gs p

theorem children_eq (e : Ent) (q : QualifierQuery Q) (p : Pair E) :
    J.children h e q p =
      callsCode h (J.child.leaves.flatMap (fun st => st.calls e q ((J.world.children e).getD []))) p := by
  unfold children
  cases J.world.children e with
  | none =>
    have : J.child.leaves.flatMap (fun st => st.calls e q ((none : Option (List Ent)).getD [])) = [] := by
      simp [CStream.calls]
    rw [this]; rfl
  | some cs => exact Streams.stream_eq h J.child e cs q p

theorem compute_eq (e : Ent) (q : QualifierQuery Q) (s : StatInst E) :
    J.compute A h e q s =
      (CProg.lift (J.world.startValue A s)).bind fun v => callsCode h (J.statCalls e q) ⟨s, v⟩ := by
  unfold compute statCalls
  simp only [CProg.bind_eq, globals_eq, Streams.stream_eq, callsCode_append, CProg.bind_assoc]
  congr; funext v; congr; funext p1; congr; funext p2; congr; funext p3
  exact children_eq J h e q p3

theorem queryRelationErased_eq (a b : Ent) (q : QualifierQuery Q) (s : StatInst E) :
    J.queryRelationErased A h a b q s =
      if J.world.isStat a && J.world.isStat b then
        (CProg.lift (J.world.startValue A s)).bind fun v =>
          (callsCode h (J.relationCalls a b q) ⟨s, v⟩).bind fun p => .ret (some p.value)
      else .ret none := by
  unfold queryRelationErased relationCalls
  simp only [CProg.bind_eq, globals_eq, Streams.relation_eq, callsCode_append, CProg.bind_assoc]

theorem hasAttributeErased_eq (e : Ent) (a : String) :
    J.hasAttributeErased h e a = anyCode h (J.attrCalls e a) := by
  unfold hasAttributeErased attrCalls childAttribute
  simp only [CProg.bind_eq, Streams.hasAttribute_eq, anyCode_append, CProg.bind_assoc]
  congr; funext b
  cases b with
  | true => simp
  | false =>
    simp only [Bool.false_eq_true, if_false]
    congr; funext b
    cases b with
    | true => simp
    | false =>
      simp only [Bool.false_eq_true, if_false]
      cases J.world.isStat e with
      | false => rfl
      | true =>
        simp only [if_true]
        cases J.world.children e with
        | none =>
          have : J.child.leaves.flatMap (fun st => st.attrCalls e a ((none : Option (List Ent)).getD [])) = [] := by
            simp [CStream.attrCalls]
          rw [this]; rfl
        | some cs => rfl

end Joined
end BSQ
