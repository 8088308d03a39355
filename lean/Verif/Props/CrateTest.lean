import Verif.Model.CrateTest
import Verif.Props.OpArms
import Verif.Props.Fraction
/-!
# C139: the stream of the crate's own test module
-/
set_option linter.unusedSectionVars false
namespace BSQ
namespace CrateTest
variable {Q Ent : Type} [DecidableEq Q] [DecidableEq Ent]

/-- the stats -/
abbrev intStat (x : Fin 4) : StatInst env := env.asEntry (s := true) x
abbrev flagsStat (x : Fin 4) : StatInst env := env.asEntry (s := false) x

/-- what the arms add to `A`, `B`, `C`, `D` -/
def amount : Fin 4 → Int := ![1, 2, 2, 3]

/-- what the arms do to `E`, `F`, `G`, `H` -/
def flagOp : Fin 4 → StatOp (sv false) := ![.or (1 : BitVec 32), .not (2 : BitVec 32), .or (2 : BitVec 32), .or (3 : BitVec 32)]

/-- the arms as operations -/
def opArms : List (OpArm env) :=
  [.stat (T := true) (0 : Fin 4) [.add (1 : Int)],
   .stat (T := true) (1 : Fin 4) [.add (2 : Int)],
   .ty true fun x => [.add ((x.val : Nat) : Int)],
   .stat (T := false) (0 : Fin 4) [.or (1 : BitVec 32)],
   .stat (T := false) (1 : Fin 4) [.not (2 : BitVec 32)],
   .ty false fun x => [.or (BitVec.ofNat 32 x.val)]]

theorem applyOps_one {V : Type} {D : StatValue V} (o : StatOp D) (v : V) : applyOps [o] v = o.writeTo v := by
  rw [applyOps]
  cases o.writeTo v <;> rfl

theorem arms_eq : opArms.map OpArm.arm = arms := by
  simp only [opArms, arms, List.map, OpArm.arm, applyOps_one]
  rfl

theorem selects_int (x : Fin 4) : OpArm.Selects opArms (intStat x) [.add (amount x : Int)] := by
  have no : ∀ (y : Fin 4) l, y ≠ x → ¬ (OpArm.stat (E := env) (T := true) y l).Is (intStat x) := by
    intro y l h h'
    have := congrArg StatInst.index h'
    exact h (Fin.ext this.symm)
  by_cases h0 : x = 0
  · subst h0; exact .stat (E := env) (T := true) (0 : Fin 4) _ _
  refine .skip (no 0 _ (Ne.symm h0)) ?_
  by_cases h1 : x = 1
  · subst h1; exact .stat (E := env) (T := true) (1 : Fin 4) _ _
  refine .skip (no 1 _ (Ne.symm h1)) ?_
  have := OpArm.Selects.ty (E := env) (intStat x) x (by fin_cases x <;> rfl) (fun x => [.add ((x.val : Nat) : Int)])
    (opArms.drop 3)
  have e : ((x.val : Nat) : Int) = amount x := by
    fin_cases x
    · exact absurd rfl h0
    · exact absurd rfl h1
    · rfl
    · rfl
  rw [e] at this
  exact this

theorem selects_flags (x : Fin 4) : OpArm.Selects opArms (flagsStat x) [flagOp x] := by
  have no : ∀ (y : Fin 4) l, y ≠ x → ¬ (OpArm.stat (E := env) (T := false) y l).Is (flagsStat x) := by
    intro y l h h'
    have := congrArg StatInst.index h'
    exact h (Fin.ext this.symm)
  have nt : ∀ (y : Fin 4) l, ¬ (OpArm.stat (E := env) (T := true) y l).Is (flagsStat x) := by
    intro y l h'
    cases congrArg StatInst.vt h'
  refine .skip (nt 0 _) (.skip (nt 1 _) (.skip (fun h => by cases h) ?_))
  by_cases h0 : x = 0
  · subst h0; exact .stat (E := env) (T := false) (0 : Fin 4) _ _
  refine .skip (no 0 _ (Ne.symm h0)) ?_
  by_cases h1 : x = 1
  · subst h1; exact .stat (E := env) (T := false) (1 : Fin 4) _ _
  refine .skip (no 1 _ (Ne.symm h1)) ?_
  have := OpArm.Selects.ty (E := env) (flagsStat x) x (by fin_cases x <;> rfl) (fun x => [.or (BitVec.ofNat 32 x.val)])
    (opArms.drop 6)
  have e : StatOp.or (BitVec.ofNat 32 x.val) = flagOp x := by
    fin_cases x
    · exact absurd rfl h0
    · exact absurd rfl h1
    · rfl
    · rfl
  rw [← e]
  exact this

theorem storable : ∀ a ∈ opArms, Storable (env.statLayout a.statTy) := fun _ _ => ⟨by change (8 = 1 ∨ 8 = 2 ∨ 8 = 4 ∨ 8 = 8); decide, by change 8 ≤ 24; decide⟩

variable (A : Addr env) (has : Ent → Bool)

/-- one call of the stream is one call of the arms -/
theorem calls_eq (e : Ent) (q : QualifierQuery Q) (es : List Ent) :
    (X (Q := Q) A has).calls e q es = List.replicate (es.countP has) (OpArm.call A opArms) := by
  have one : ∀ it, (X (Q := Q) A has).stream e it q = OpArm.call A opArms := by
    intro it
    funext p
    simp only [X, OpArm.call, arms_eq]
  induction es with
  | nil => rfl
  | cons a es ih =>
    unfold CStream.calls at ih ⊢
    rw [List.countP_cons]
    cases h : has a with
    | true =>
      have : (X (Q := Q) A has).query a = some () := by simp [X, h]
      rw [List.filterMap_cons_some this]
      refine (congrArg₂ List.cons (one ()) ih).trans ?_
      simp [List.replicate_succ]
    | false =>
      have : (X (Q := Q) A has).query a = none := by simp [X, h]
      rw [List.filterMap_cons_none this, ih]
      simp

/-- how many of the entity and its children have the component -/
def sources (w : World env Q Ent) (has : Ent → Bool) (e : Ent) : Nat :=
  (e :: (w.children e).getD []).countP has

/-- the query: components and children -/
abbrev querier (w : World env Q Ent) : Joined env Q Ent := (w.withComponent (X A has)).withChildren (X A has)

theorem statCalls_eq (w : World env Q Ent) (hr : w.relations = none) (e : Ent) (q : QualifierQuery Q) :
    (querier A has w).statCalls e q = List.replicate (sources w has e) (OpArm.call A opArms) := by
  simp only [Joined.statCalls, Joined.withChildren, World.withComponent, hr, Streams.leaves, Option.getD_none, List.map_nil,
    List.nil_append, List.flatMap_cons, List.flatMap_nil, List.append_nil, calls_eq, List.replicate_append_replicate, sources]
  rw [List.countP_cons, List.countP_cons, List.countP_nil, Nat.zero_add, Nat.add_comm]

theorem step_int (o : Oracle env Q Ent) (x : Fin 4) (v : StatIntPercentAdditive) :
    (OpArm.call (Q := Q) (Ent := Ent) A opArms ⟨intStat x, .val true v⟩).eval o =
      ((sv true).add v (amount x : Int) >>= fun v' => .ok ⟨intStat x, .val true v'⟩) := by
  refine (C139_does A opArms (intStat x) [.add (amount x : Int)] (selects_int x) storable o v).trans ?_
  have : applyOps ([.add (amount x : Int)] : List (StatOp (intStat x).sv)) v = (sv true).add v (amount x : Int) :=
    applyOps_one _ _
  exact congrArg (· >>= _) this

theorem step_flags (o : Oracle env Q Ent) (x : Fin 4) (v : StatFlags (BitVec 32)) :
    (OpArm.call (Q := Q) (Ent := Ent) A opArms ⟨flagsStat x, .val false v⟩).eval o =
      ((flagOp x).writeTo v >>= fun v' => .ok ⟨flagsStat x, .val false v'⟩) := by
  refine (C139_does A opArms (flagsStat x) [flagOp x] (selects_flags x) storable o v).trans ?_
  have : applyOps ([flagOp x] : List (StatOp (flagsStat x).sv)) v = (flagOp x).writeTo v := applyOps_one _ _
  exact congrArg (· >>= _) this

theorem add_i32 (v : StatIntPercentAdditive) (a : Int) (h0 : 0 ≤ v.addend + a) :
    (sv true).add v a =
      if v.addend + a ≤ 2147483647 then .ok { v with addend := v.addend + a } else .error .panic := by
  change (NumTy.fit _ (v.addend + a) >>= fun addend => Except.ok { v with addend := addend }) = _
  have : IntTy.InRange .i32 (v.addend + a) ↔ v.addend + a ≤ 2147483647 := by
    constructor
    · intro h; exact h.2
    · intro h; exact ⟨le_trans (by decide) h0, h⟩
  unfold NumTy.fit
  by_cases h : v.addend + a ≤ 2147483647
  · rw [if_pos (this.2 h), if_pos h]; rfl
  · rw [if_neg (fun h' => h (this.1 h')), if_neg h]; rfl

theorem run_int (o : Oracle env Q Ent) (x : Fin 4) (k : Nat) (v : StatIntPercentAdditive) (h0 : 0 ≤ v.addend)
    (hv : v.addend ≤ 2147483647) :
    runCalls o (List.replicate k (OpArm.call A opArms)) ⟨intStat x, .val true v⟩ =
      if v.addend + k * amount x ≤ 2147483647 then
        .ok ⟨intStat x, .val true { v with addend := v.addend + k * amount x }⟩
      else .error .panic := by
  have hpos : 1 ≤ amount x := by revert x; decide
  induction k generalizing v with
  | zero => simp [runCalls, hv]
  | succ k ih =>
    rw [List.replicate_succ, runCalls, step_int, add_i32 v _ (by omega)]
    have hk : (0 : Int) ≤ k * amount x := by positivity
    have hs : ((k + 1 : Nat) : Int) * amount x = amount x + k * amount x := by push_cast; ring
    rw [hs, ← add_assoc]
    by_cases h : v.addend + amount x ≤ 2147483647
    · rw [if_pos h, Res.bind_ok, Res.bind_ok]
      exact ih { v with addend := v.addend + amount x } (by simp only; omega) h
    · rw [if_neg h, if_neg (by omega)]
      rfl

theorem run_flags (o : Oracle env Q Ent) (x : Fin 4) (k : Nat) (v : StatFlags (BitVec 32))
    (hv : (flagOp x).writeTo v = .ok v) :
    runCalls o (List.replicate k (OpArm.call A opArms)) ⟨flagsStat x, .val false v⟩ = .ok ⟨flagsStat x, .val false v⟩ := by
  induction k with
  | zero => rfl
  | succ k ih => rw [List.replicate_succ, runCalls, step_flags, hv, Res.bind_ok, Res.bind_ok, ih]

/-- what the query leaves in `E`, `F`, `G`, `H` when there is a source: the flags switched off and on -/
def flags : Fin 4 → StatFlags (BitVec 32) := ![⟨0, 1⟩, ⟨2, 0⟩, ⟨0, 2⟩, ⟨0, 3⟩]
end CrateTest

open CrateTest

variable {Q Ent : Type} [DecidableEq Q] [DecidableEq Ent]

/-- C139: with the test stream on components and on children, a query for `IntStat` adds 1, 2, 2 or 3 once for the entity
and each of its children that has the component; in a debug build it panics exactly when the sum does not fit in `i32` -/
theorem C139_crate_int (A : Addr env) (has : Ent → Bool) (w : World env Q Ent) (hr : w.relations = none)
    (hd : w.defaults = none) (n : Nat) (e : Ent) (he : w.isStat e = true) (q : QualifierQuery Q) (x : Fin 4) :
    (querier A has w).answer A (n + 1) (.stat e q (intStat x)) =
      if sources w has e * amount x ≤ 2147483647 then
        .ok (some { addend := sources w has e * amount x, mult := 0, min := -2147483648, max := 2147483647 })
      else .error .panic := by
  have hs : Storable (env.layout (intStat x).ty) := (by constructor <;> decide : Storable (env.layout true))
  have hst := (C44_start (A := A) w (intStat x) hs).1 hd
  rw [Joined.answer_body hs he, Joined.body]
  have hst' : (querier A has w).world.startValue A (intStat x) = .ok (.val true (sv true).default) := hst
  rw [hst', Res.bind_ok, statCalls_eq A has w hr, run_int A _ x _ _ (by decide) (by decide)]
  have e0 : (sv true).default.addend = 0 := rfl
  rw [e0, zero_add]
  split <;> rfl

/-- C139: with the test stream on components and on children, a query for `FlagsStat` does to the value, once, what the arm
says, if the entity or one of its children has the component -/
theorem C139_crate_flags (A : Addr env) (has : Ent → Bool) (w : World env Q Ent) (hr : w.relations = none)
    (hd : w.defaults = none) (n : Nat) (e : Ent) (he : w.isStat e = true) (q : QualifierQuery Q) (x : Fin 4) :
    (querier A has w).answer A (n + 1) (.stat e q (flagsStat x)) =
      .ok (some (if sources w has e = 0 then ⟨0, 0⟩ else flags x)) := by
  have hs : Storable (env.layout (flagsStat x).ty) := (by constructor <;> decide : Storable (env.layout false))
  have hst := (C44_start (A := A) w (flagsStat x) hs).1 hd
  rw [Joined.answer_body hs he, Joined.body]
  have hst' : (querier A has w).world.startValue A (flagsStat x) = .ok (.val false (sv false).default) := hst
  rw [hst', Res.bind_ok, statCalls_eq A has w hr]
  cases h : sources w has e with
  | zero => rfl
  | succ k =>
    have h1 : (flagOp x).writeTo (sv false).default = .ok (flags x) := by fin_cases x <;> rfl
    have h2 : (flagOp x).writeTo (flags x) = .ok (flags x) := by fin_cases x <;> rfl
    rw [List.replicate_succ, runCalls, step_flags, h1, Res.bind_ok, Res.bind_ok, run_flags A _ x k _ h2]
    rfl

/-- the evaluated answers: the sums, and the flags 1, none, 2 and 3 -/
example : (List.finRange 4).map (fun x => (sv true).eval { addend := 5 * amount x, mult := 0, min := -2147483648, max := 2147483647 })
    = [.ok 5, .ok 10, .ok 10, .ok 15] := by decide +kernel
example : (List.finRange 4).map (fun x => (sv false).eval (flags x)) = [.ok 1, .ok 0, .ok 2, .ok 3] := by decide +kernel

/-- a world in which the hypotheses hold: entity 0 has the children 1, 2 and 3; 0, 1 and 3 have the component -/
example : ∃ w : World env Nat Nat, w.relations = none ∧ w.defaults = none ∧ w.isStat 0 = true ∧
    sources w (fun e => e != 2) 0 = 3 :=
  ⟨{ isStat := fun _ => true, children := fun e => if e = 0 then some [1, 2, 3] else none, defaults := none,
     relations := none, cached := false, placeholder := 99 }, rfl, rfl, rfl, by decide⟩

/-- operations on `IntStat` with amounts that fit in `i32` -/
def CrateTest.okOp : (s : StatInst env) → StatOp s.sv → Prop
  | ⟨true, _⟩ => statIntPercentAdditive.okOp
  | ⟨false, _⟩ => fun _ => True

/-- the hypotheses of `C139_order` hold for the test stream and `IntStat`: a querier with the same sources in another order
gives the same sums -/
example (A : Addr env) (has : Ent → Bool) (w : World env Q Ent) (hr : w.relations = none) (hd : w.defaults = none)
    (J' : Joined env Q Ent) (h : SameSources (querier A has w) J') (n m : Nat) (e : Ent) (q : QualifierQuery Q) (x : Fin 4) :
    Agree ((querier A has w).answer A n (.stat e q (intStat x))) (J'.answer A m (.stat e q (intStat x))) := by
  refine C139_order A _ J' h (fun s => ∃ x, s = intStat x) CrateTest.okOp ?_ ?_ ?_ (· = opArms) ?_ ?_ ?_ ?_ n m _ ⟨x, rfl⟩
  · rintro s ⟨x, rfl⟩; exact ⟨x, by fin_cases x <;> rfl⟩
  · rintro s ⟨x, rfl⟩; exact C20_unordered _ rfl (by decide) _ _
  · rintro s b ⟨x, rfl⟩ hb
    have hs : Storable (env.layout (intStat x).ty) := (by constructor <;> decide : Storable (env.layout true))
    have := (C44_start (A := A) w (intStat x) hs).1 hd
    cases this.symm.trans hb
    exact ⟨_, [], rfl, .dflt, trivial, by simp [Tree.leaves], by simp [Tree.leaves], rfl⟩
  · rintro arms rfl s ⟨x, rfl⟩ ops hops o ho
    cases (C139_selects opArms (intStat x)).1 _ _ hops (selects_int x)
    cases List.mem_singleton.1 ho
    exact ⟨by change IntTy.InRange .i32 (amount x); fin_cases x <;> decide, id⟩
  · intro e q c hc
    rw [statCalls_eq A has w hr] at hc
    exact ⟨_, rfl, List.eq_of_mem_replicate hc⟩
  · intro a b q c hc
    simp [Joined.relationCalls, Joined.withChildren, World.withComponent, hr, Streams.leaves] at hc
  · intro e a c hc
    simp only [Joined.attrCalls, List.mem_append, Joined.withChildren, World.withComponent, Streams.leaves] at hc
    have key : ∀ es, c ∈ (X (Q := Q) A has).attrCalls e a es → ∃ b, c = .ret b := by
      intro es h
      obtain ⟨it, -, rfl⟩ := List.mem_map.1 h
      exact ⟨false, rfl⟩
    rcases hc with (hc | hc) | hc
    · simp at hc; exact key _ hc
    · simp at hc
    · split at hc
      · simp at hc; exact key _ hc
      · simp at hc
end BSQ
