import Verif.Spec.Misc
import Verif.Proofs.FracStats
import Verif.Props.Rounding
/-!
# Properties of `StatFlags` (C17), `StatExists`/`bool` (C18), `StatOnce` (C19), `StatIntPercent` (C26) and
`Prioritized` (C27)
-/
namespace BSQ
open Contrib
set_option linter.unusedSimpArgs false

/-! ## C17 -/

/-- C17: however the operations and joins are ordered and grouped, assembling never fails and a flag is
present in the evaluation exactly when some `Or` (or base) sets it and no `Not` clears it. -/
theorem C17_flags (T : Type) [BitXorFlags T] [FlagSetXor T] (tr : Tree (statFlags T)) (hr : tr.NoReset) :
    ∃ v out, tr.run = .ok v ∧ (statFlags T).eval v = .ok out ∧
      ∀ f : FlagSet.Flag T, FlagSet.has out f ↔
        (∃ o ∈ tr.leaves, o.Sets f) ∧ ¬ (∃ o ∈ tr.leaves, o.Clears f) := by
  have key : ∃ v, tr.run = .ok v ∧ ∀ f : FlagSet.Flag T,
      (FlagSet.has v.or f ↔ ∃ o ∈ tr.leaves, o.Sets f) ∧
      (FlagSet.has v.not f ↔ ∃ o ∈ tr.leaves, o.Clears f) := by
    induction tr with
    | dflt => exact ⟨_, rfl, fun f => by simp [Tree.leaves, FlagSet.has_default]⟩
    | base b =>
      refine ⟨_, rfl, fun f => ?_⟩
      simp [Tree.leaves, FlagSet.has_default, StatOp.Sets, StatOp.Clears]
    | op t o ih =>
      obtain ⟨v, hv, ih⟩ := ih hr.1
      simp only [Tree.run, hv, Res.bind_ok, Tree.leaves, List.mem_append, List.mem_singleton, or_and_right,
        exists_or, exists_eq_left]
      cases o with
      | add a => exact a.elim
      | mul a => exact a.elim
      | min a => exact a.elim
      | max a => exact a.elim
      | base b => exact absurd trivial hr.2
      | or x =>
        refine ⟨_, rfl, fun f => ?_⟩
        simp [FlagSet.has_or, ih, StatOp.Sets, StatOp.Clears]
      | not x =>
        refine ⟨_, rfl, fun f => ?_⟩
        simp [FlagSet.has_or, ih, StatOp.Sets, StatOp.Clears]
    | join l r ihl ihr =>
      obtain ⟨a, ha, iha⟩ := ihl hr.1
      obtain ⟨b, hb, ihb⟩ := ihr hr.2
      refine ⟨⟨BitFlags.bor a.not b.not, BitFlags.bor a.or b.or⟩, by simp [Tree.run, ha, hb], fun f => ?_⟩
      simp [FlagSet.has_or, iha, ihb, Tree.leaves, or_and_right, exists_or]
  obtain ⟨v, hv, h⟩ := key
  refine ⟨v, _, hv, rfl, fun f => ?_⟩
  simp only [exclude, FlagSetXor.has_xor, FlagSet.has_and, ← (h f).1, ← (h f).2]
  tauto

/-- `0b0110 | base 0b1001`, not `0b0011`: `0b1100` -/
example : let tr : Tree (statFlags (BitVec 4)) := .join (.op (.op .dflt (.not 3)) (.or 6)) (.base 9)
    tr.NoReset ∧ (tr.run >>= fun v => (statFlags (BitVec 4)).eval v) = .ok 12 := by
  exact ⟨by simp [Tree.NoReset, StatOp.IsBase], by decide⟩

/-! ## C18 -/

/-- C18: a `StatExists` assembled in any way evaluates to `true` iff some `or` or base value is `true`. -/
theorem C18_exists (tr : Tree statExists) (hr : tr.NoReset) :
    ∃ v out, tr.run = .ok v ∧ statExists.eval v = .ok out ∧
      (out = true ↔ ∃ o ∈ tr.leaves, o.existsArg = true) := by
  have key : ∃ v, tr.run = .ok v ∧ (v.val = true ↔ ∃ o ∈ tr.leaves, o.existsArg = true) := by
    induction tr with
    | dflt => exact ⟨_, rfl, by simp [Tree.leaves]⟩
    | base b => exact ⟨_, rfl, by simp [Tree.leaves, StatOp.existsArg]⟩
    | op t o ih =>
      obtain ⟨v, hv, ih⟩ := ih hr.1
      simp only [Tree.run, hv, Res.bind_ok, Tree.leaves, List.mem_append, List.mem_singleton, or_and_right,
        exists_or, exists_eq_left]
      cases o with
      | add a => exact a.elim
      | mul a => exact a.elim
      | min a => exact a.elim
      | max a => exact a.elim
      | base b => exact absurd trivial hr.2
      | or x => exact ⟨_, rfl, by simp [ih, StatOp.existsArg]⟩
      | not x => exact ⟨_, rfl, by simp [ih, StatOp.existsArg]⟩
    | join l r ihl ihr =>
      obtain ⟨a, ha, iha⟩ := ihl hr.1
      obtain ⟨b, hb, ihb⟩ := ihr hr.2
      refine ⟨⟨a.val || b.val⟩, by simp [Tree.run, ha, hb], ?_⟩
      simp [iha, ihb, Tree.leaves, or_and_right, exists_or]
  obtain ⟨v, hv, h⟩ := key
  exact ⟨v, v.val, hv, rfl, h⟩

/-- C18: joining any collection of `bool`s, in any order and grouping, evaluates to `true` iff one of them
is `true` (the trees contain no operations: the `or` of `bool` is the trait's no-op, see below). -/
theorem C18_bool (tr : Tree boolValue) (hr : tr.NoReset) :
    ∃ v out, tr.run = .ok v ∧ boolValue.eval v = .ok out ∧
      (out = true ↔ ∃ b, StatOp.base b ∈ tr.leaves ∧ b = true) := by
  have key : ∃ v, tr.run = .ok v ∧ (v = true ↔ StatOp.base true ∈ tr.leaves) := by
    induction tr with
    | dflt => exact ⟨_, rfl, by simp [Tree.leaves]⟩
    | base b => exact ⟨_, rfl, by simp [Tree.leaves]⟩
    | op t o ih =>
      obtain ⟨v, hv, ih⟩ := ih hr.1
      simp only [Tree.run, hv, Res.bind_ok, Tree.leaves, List.mem_append, List.mem_singleton]
      cases o with
      | add a => exact a.elim
      | mul a => exact a.elim
      | min a => exact a.elim
      | max a => exact a.elim
      | base b => exact absurd trivial hr.2
      | or x => exact ⟨_, rfl, by simp [ih]⟩
      | not x => exact ⟨_, rfl, by simp [ih]⟩
    | join l r ihl ihr =>
      obtain ⟨a, ha, iha⟩ := ihl hr.1
      obtain ⟨b, hb, ihb⟩ := ihr hr.2
      refine ⟨a || b, by simp [Tree.run, ha, hb], ?_⟩
      simp [iha, ihb, Tree.leaves]
  obtain ⟨v, hv, h⟩ := key
  exact ⟨v, v, hv, rfl, by simp [h]⟩

/-- The `or` operation on a plain `bool` stat does nothing: `Or(true)` applied to `false` stays `false`. -/
theorem C18_bool_or_is_ignored (b x : Bool) : (StatOp.or x : StatOp boolValue).writeTo b = .ok b := rfl

example : let tr : Tree boolValue := .join (.base false) (.join .dflt (.base true))
    tr.NoReset ∧ tr.run = .ok true := by
  exact ⟨by simp [Tree.NoReset], by decide⟩

/-! ## C19 -/

theorem onceSpec_append {T : Type} (a b : List T) : (onceSpec a).join (onceSpec b) = onceSpec (a ++ b) := by
  match a, b with
  | [], [] => rfl
  | [], [_] => rfl
  | [], _ :: _ :: _ => rfl
  | [_], [] => rfl
  | [_], [_] => rfl
  | [_], _ :: _ :: _ => rfl
  | _ :: _ :: _, [] => rfl
  | _ :: _ :: _, [_] => rfl
  | _ :: _ :: _, _ :: _ :: _ => rfl

theorem onceSpec_snoc {T : Type} (a : List T) (x : T) : (onceSpec a).or x = onceSpec (a ++ [x]) := by
  match a with
  | [] => rfl
  | [_] => rfl
  | _ :: _ :: _ => rfl

/-- C19: however `or` operations, base values and joins are ordered and grouped, the result is `NotFound`,
`Found(x)` or `FoundMultiple` according to whether none, exactly one (namely `x`) or more values were
provided. -/
theorem C19_once (T : Type) (tr : Tree (statOnce T)) (hr : tr.NoReset) :
    ∃ v, tr.run = .ok v ∧ (statOnce T).eval v = .ok (onceSpec (tr.leaves.filterMap StatOp.onceArg)) := by
  have key : tr.run = .ok (onceSpec (tr.leaves.filterMap StatOp.onceArg)) := by
    induction tr with
    | dflt => rfl
    | base b => rfl
    | op t o ih =>
      simp only [Tree.run, ih hr.1, Res.bind_ok, Tree.leaves, List.filterMap_append]
      cases o with
      | add a => exact a.elim
      | mul a => exact a.elim
      | min a => exact a.elim
      | max a => exact a.elim
      | base b => exact absurd trivial hr.2
      | or x => simp [StatOp.writeTo, StatOp.onceArg, onceSpec_snoc]
      | not x => simp [StatOp.writeTo, StatOp.onceArg, List.filterMap]
    | join l r ihl ihr =>
      simp only [Tree.run, ihl hr.1, ihr hr.2, Res.bind_ok, Tree.leaves, List.filterMap_append,
        onceSpec_append]
  exact ⟨_, key, rfl⟩

/-- what was provided, in any order -/
theorem onceSpec_perm {T : Type} (l k : List T) (h : l.Perm k) : onceSpec l = onceSpec k := by
  match l, k, h with
  | [], k, h => rw [h.nil_eq]
  | [x], k, h => rw [List.singleton_perm.1 h]
  | x :: y :: l, [], h => simpa using h.length_eq
  | x :: y :: l, [z], h => simpa using h.length_eq
  | x :: y :: l, z :: w :: k, h => rfl

/-- C19: the outcome does not depend on the order of the provided values, however they are grouped. -/
theorem C19_order (T : Type) (tr tr' : Tree (statOnce T)) (hr : tr.NoReset) (hr' : tr'.NoReset)
    (h : tr.leaves.Perm tr'.leaves) : tr.run = tr'.run := by
  obtain ⟨v, h1, h2⟩ := C19_once T tr hr
  obtain ⟨v', h1', h2'⟩ := C19_once T tr' hr'
  rw [h1, h1']
  rw [onceSpec_perm _ _ (h.filterMap _), ← h2'] at h2
  exact h2

/-- C19: `set` is `or`; `try_set` stores iff nothing was found yet, reports whether it stored and never
yields `FoundMultiple` from anything else. -/
theorem C19_set (T : Type) (s : StatOnce T) (x : T) :
    s.set x = s.or x ∧
    ((s.trySet x).2 = true ↔ s = .notFound) ∧
    ((s.trySet x).2 = true → (s.trySet x).1 = .found x) ∧
    ((s.trySet x).2 = false → (s.trySet x).1 = s) ∧
    ((s.trySet x).1 = .foundMultiple → s = .foundMultiple) := by
  cases s <;> simp [StatOnce.set, StatOnce.trySet]

/-- C19: the accessors: exactly `Found(x)` yields `x`; `unwrap` panics otherwise. -/
theorem C19_accessors (T : Type) (s : StatOnce T) (d x : T) :
    (s.intoOption = some x ↔ s = .found x) ∧ (s.isSome = true ↔ ∃ y, s = .found y) ∧
    s.isNone = !s.isSome ∧ (s.unwrap = .ok x ↔ s = .found x) ∧
    (s.unwrap = .error .panic ↔ s.isNone = true) ∧
    (s.unwrapOr d = if s.isSome then s.intoOption.getD d else d) := by
  cases s <;> simp [StatOnce.intoOption, StatOnce.isSome, StatOnce.isNone, StatOnce.unwrap, StatOnce.unwrapOr]

/-- the hypotheses of `C19_order` are met: two groupings of the same values in different orders -/
example : let l : Tree (statOnce Nat) := .join (.op .dflt (.or 3)) (.op .dflt (.or 4))
    let r : Tree (statOnce Nat) := .op (.op .dflt (.or 4)) (.or 3)
    l.NoReset ∧ r.NoReset ∧ l.leaves.Perm r.leaves ∧ l.run = .ok .foundMultiple := by
  refine ⟨by simp [Tree.NoReset, StatOp.IsBase], by simp [Tree.NoReset, StatOp.IsBase], ?_, by decide⟩
  exact List.Perm.swap _ _ []

example : let tr : Tree (statOnce Nat) := .join (.op .dflt (.or 3)) (.join .dflt .dflt)
    tr.NoReset ∧ tr.run = .ok (.found 3) ∧ (Tree.join tr (.base 3)).run = .ok .foundMultiple := by
  exact ⟨by simp [Tree.NoReset, StatOp.IsBase], by decide, by decide⟩

/-! ## C26 -/

/-- C26 is false: joining the default is not neutral.  A base of `10` without any modifier, joined into the
default as every query does, evaluates to `22` instead of `10`. -/
theorem C26_default_not_identity :
    let D := statIntPercent ⟨.i32, .prim, .debug⟩ .truncate 100
    (D.eval (D.fromBase 10) = .ok 10) ∧
    ((D.join D.default (D.fromBase 10) >>= fun v => D.eval v) = .ok 22) := by
  exact ⟨by decide, by decide⟩

/-- C26 is false for every base: whenever joining `from_base(b)` into the default and evaluating does not
overflow, the result is `2 * (b + 1)`, whatever the integer type, rounding and scale. -/
theorem C26_default_join_value (t : NumTy) (h : t.ovf = .panic) (R : Rounding) (S b : Int)
    (v : StatIntPercent) (out : Int)
    (hj : (statIntPercent t R S).join (statIntPercent t R S).default ((statIntPercent t R S).fromBase b) = .ok v)
    (he : (statIntPercent t R S).eval v = .ok out) : out = 2 * (b + 1) := by
  simp only [Res.bind_eq_ok, NumTy.primInt_of_panic h, NumTy.add, NumTy.fit_panic h, Except.ok.injEq,
    Frac.ops, Frac.newRaw] at hj
  obtain ⟨_, ⟨rfl, -⟩, m, hm, rfl⟩ := hj
  have hm := (Frac.addSub_int h).1 hm
  subst hm
  simp only [Res.bind_eq_ok, NumTy.primInt_of_panic h, NumTy.fromFraction, NumTy.intoFraction,
    Frac.newRaw] at he
  obtain ⟨x, hx, r, hrr, i, hi, he⟩ := he
  obtain ⟨k1, k2⟩ := Frac.mul_ok h (Frac.wf_int _) (Frac.wf_int _) hx
  have hxi : x = ⟨(1 + b) * 2, 1⟩ := by
    apply Frac.toRat_inj k1 (Frac.wf_int _)
    rw [k2, Frac.toRat_int, Frac.toRat_int, Frac.toRat_int]; push_cast; ring
  subst hxi
  obtain ⟨z, rfl, hz⟩ := Frac.apply_ok h R (Frac.wf_int _) hrr
  rw [Frac.toRat_int] at hz
  have hzz := Frac.rounds_unique R hz (Frac.rounds_int R _)
  subst hzz
  simp only [Frac.toInteger, Res.bind_eq_ok] at hi
  obtain ⟨y, hy, hi⟩ := hi
  have hyr := hy
  rw [Frac.trunc_ok h hy] at hi
  cases hi
  simp only [Frac.trunc, Res.bind_eq_ok, NumTy.div_eq_ok] at hyr
  obtain ⟨n, ⟨_, _, hin⟩, _⟩ := hyr
  simp only [Int.tdiv_one] at hin
  cases he
  rw [NumTy.max_eq, NumTy.min_eq]
  have h1 := hin.1; have h2 := hin.2
  simp only [NumTy.max_eq, NumTy.min_eq, NumTy.minValue, NumTy.maxValue, max_self, min_self, Int.tdiv_one]
  omega

/-- C26 is false: two `150%` multipliers combine to `225%` by `mul` but to `300%` by `join`. -/
theorem C26_mul_join_differ :
    let D := statIntPercent ⟨.i32, .prim, .debug⟩ .truncate 100
    let base := D.fromBase 0
    ((StatOp.applyAll (D := D) [.mul 150, .mul 150, .add 100] base >>= fun v => D.eval v) = .ok 225) ∧
    ((D.mul base 150 >>= fun a => D.mul base 150 >>= fun b => D.join a b >>= fun v =>
      D.add v 100 >>= fun v => D.eval v) = .ok 300) := by
  exact ⟨by decide, by decide⟩

theorem floorOf_max {A M B : Type} [LinearOrder B] (x y : B) (L : List (Contrib A M B)) :
    floorOf (max x y) L = max y (floorOf x L) := by
  induction L with
  | nil => simp [floorOf, max_comm]
  | cons c L ih => cases c <;> simp [floorOf, ih, max_left_comm]

theorem capOf_min {A M B : Type} [LinearOrder B] (x y : B) (L : List (Contrib A M B)) :
    capOf (min x y) L = min y (capOf x L) := by
  induction L with
  | nil => simp [capOf, min_comm]
  | cons c L ih => cases c <;> simp [capOf, ih, min_left_comm]

/-- C26, the part that holds: starting from a base and using operations only (no `join`, no default), the
evaluation is `(base + addends) × ∏ (percent/SCALE)`, rounded and clamped, and so independent of the order
of the operations.  Missing: everything about `default` and `join`, refuted above. -/
theorem C26_ops_on_base_partial (t : NumTy) (h : t.ovf = .panic) (hb : 1 < t.prim.bits)
    (hw : t.prim.bits ≤ 63 ∨ (t.prim.bits = 64 ∧ t.prim.signed = true)) (R : Rounding) (S : Int)
    (hS : t.prim.InRange S) (b : Int) (os : List (StatOp (statIntPercent t R S)))
    (hn : ∀ o ∈ os, ¬ o.IsBase) (v : StatIntPercent) (out : Int)
    (hv : StatOp.applyAll os ((statIntPercent t R S).fromBase b) = .ok v)
    (he : (statIntPercent t R S).eval v = .ok out) :
    let C := os.map statIntPercent.contrib
    ∃ z : ℤ, Rounds R (((b + total C : ℤ) : ℚ) * product C) z ∧
      out = clampTo z (floorOf t.prim.lo C) (capOf t.prim.hi C) := by
  have hfS : t.fromI64 S = .ok S := by
    rw [C33_small_types_partial t (by omega) hw]
    unfold nearest
    rw [if_neg (not_lt.2 hS.1), if_neg (not_lt.2 hS.2)]
  have key : ∀ (os : List (StatOp (statIntPercent t R S))), (∀ o ∈ os, ¬ o.IsBase) →
      ∀ v0 v, v0.mult.WF → StatOp.applyAll os v0 = .ok v → v.mult.WF ∧
        v.addend = v0.addend + total (os.map statIntPercent.contrib) ∧
        v.mult.toRat = v0.mult.toRat * product (os.map statIntPercent.contrib) ∧
        v.min = floorOf v0.min (os.map statIntPercent.contrib) ∧
        v.max = capOf v0.max (os.map statIntPercent.contrib) := by
    intro os
    induction os with
    | nil => intro _ v0 v hw0 e; cases e; simp [total, product, floorOf, capOf, hw0]
    | cons o os ih =>
      intro hn v0 v hw0 e
      simp only [StatOp.applyAll, Res.bind_eq_ok] at e
      obtain ⟨v1, h1, e⟩ := e
      have ih := ih (fun o ho => hn o (by simp [ho])) v1 v
      have hno := hn o (by simp)
      cases o with
      | base b => exact absurd trivial hno
      | or b => exact b.elim
      | not b => exact b.elim
      | add a =>
        simp only [StatOp.writeTo, Res.bind_eq_ok, NumTy.add, NumTy.fit_panic h] at h1
        obtain ⟨x, ⟨rfl, -⟩, h1⟩ := h1
        cases h1
        obtain ⟨i1, i2, i3, i4, i5⟩ := ih hw0 e
        refine ⟨i1, ?_, by simpa [statIntPercent.contrib, product] using i3,
          by simpa [statIntPercent.contrib, floorOf] using i4,
          by simpa [statIntPercent.contrib, capOf] using i5⟩
        rw [i2]; simp only [List.map_cons, statIntPercent.contrib, total]; ring
      | mul a =>
        simp only [StatOp.writeTo, Res.bind_eq_ok, NumTy.buildFraction, NumTy.primInt_of_panic h, hfS,
          Except.ok.injEq] at h1
        obtain ⟨_, rfl, f, hf, m, hm, h1⟩ := h1
        subst h1
        obtain ⟨-, k1, k2⟩ := Frac.new_ok h hf
        obtain ⟨k3, k4⟩ := Frac.mul_ok h hw0 k1 hm
        obtain ⟨i1, i2, i3, i4, i5⟩ := ih k3 e
        refine ⟨i1, by simpa [statIntPercent.contrib, total] using i2, ?_,
          by simpa [statIntPercent.contrib, floorOf] using i4,
          by simpa [statIntPercent.contrib, capOf] using i5⟩
        rw [i3]; simp only [List.map_cons, statIntPercent.contrib, product, k4, k2]; ring
      | min a =>
        simp only [StatOp.writeTo] at h1
        cases h1
        obtain ⟨i1, i2, i3, i4, i5⟩ := ih hw0 e
        refine ⟨i1, by simpa [statIntPercent.contrib, total] using i2,
          by simpa [statIntPercent.contrib, product] using i3, ?_,
          by simpa [statIntPercent.contrib, capOf] using i5⟩
        rw [i4]; simp only [List.map_cons, statIntPercent.contrib, floorOf, NumTy.max_eq]
        exact floorOf_max _ _ _
      | max a =>
        simp only [StatOp.writeTo] at h1
        cases h1
        obtain ⟨i1, i2, i3, i4, i5⟩ := ih hw0 e
        refine ⟨i1, by simpa [statIntPercent.contrib, total] using i2,
          by simpa [statIntPercent.contrib, product] using i3,
          by simpa [statIntPercent.contrib, floorOf] using i4, ?_⟩
        rw [i5]; simp only [List.map_cons, statIntPercent.contrib, capOf, NumTy.min_eq]
        exact capOf_min _ _ _
  obtain ⟨i1, i2, i3, i4, i5⟩ := key os hn _ v (Frac.wf_int 1) hv
  simp only [Res.bind_eq_ok, NumTy.primInt_of_panic h, NumTy.fromFraction, NumTy.intoFraction,
    Frac.newRaw] at he
  obtain ⟨x, hx, r, hrr, i, hi, he⟩ := he
  obtain ⟨k1, k2⟩ := Frac.mul_ok h (Frac.wf_int v.addend) i1 hx
  obtain ⟨z, rfl, hz⟩ := Frac.apply_ok h R k1 hrr
  simp only [Frac.toInteger, Res.bind_eq_ok] at hi
  obtain ⟨y, hy, hi⟩ := hi
  rw [Frac.trunc_ok h hy] at hi
  cases hi
  cases he
  refine ⟨z, ?_, ?_⟩
  · rw [k2, Frac.toRat_int] at hz
    simp only [Frac.ops, Frac.newRaw, Frac.toRat_int, Int.cast_one, one_mul] at i3
    rw [← i3, ← i2]; exact hz
  · simp only [NumTy.minValue, NumTy.maxValue] at i4 i5
    rw [NumTy.max_eq, NumTy.min_eq, ← i4, ← i5, Int.tdiv_one]; rfl

/-- `(10 + 5) * 150% * 50% = 11.25`, truncated `11` -/
example : let D := statIntPercent ⟨.i32, .prim, .debug⟩ .truncate 100
    (StatOp.applyAll (D := D) [.mul 150, .add 5, .mul 50] (D.fromBase 10) >>= fun v => D.eval v) = .ok 11 := by
  decide

/-! ## C27 -/

/-- the value part of a fold of joins: the last element whose priority beats the *first* one's -/
def prioritizedFold {T : Type} (last : Bool) (v : Prioritized T) (l : List (Prioritized T)) : T :=
  ((l.filter fun x => if last then decide (v.priority ≤ x.priority) else decide (v.priority < x.priority)).map
    Prioritized.value).getLast?.getD v.value

/-- What the code computes: `join` keeps the priority of the first value, so the outcome is the value of the
last element whose priority beats the first element's, not the highest priority. -/
theorem C27_actual (T : Type) (d : T) (last : Bool) (v : Prioritized T) (l : List (Prioritized T)) :
    joinList (prioritized T d last) v l = .ok ⟨prioritizedFold last v l, v.priority⟩ := by
  induction l generalizing v with
  | nil => rfl
  | cons x l ih =>
    simp only [joinList, Res.bind_ok]
    rw [ih]
    cases last <;> simp only [prioritizedFold, if_true, if_false, Bool.false_eq_true]
    · by_cases hx : v.priority < x.priority
      · simp only [hx, if_true, List.filter_cons, decide_true, List.map_cons, List.getLast?_cons,
          Option.getD_some]
      · simp [hx, List.filter_cons]
    · by_cases hx : v.priority ≤ x.priority
      · simp only [hx, if_true, List.filter_cons, decide_true, List.map_cons, List.getLast?_cons,
          Option.getD_some]
      · simp [hx, List.filter_cons]

/-- C27 is false in both modes: joining priorities `0, 2, 1` should yield the value of priority `2` but
yields that of priority `1`. -/
theorem C27_refuted (last : Bool) :
    let l : List (Prioritized Nat) := [⟨10, 0⟩, ⟨20, 2⟩, ⟨30, 1⟩]
    (joinList (prioritized Nat 0 last) ⟨10, 0⟩ [⟨20, 2⟩, ⟨30, 1⟩] >>= fun v =>
      (prioritized Nat 0 last).eval v) = .ok 30 ∧
    IsPrioritized last l ⟨20, 2⟩ := by
  refine ⟨by cases last <;> decide, [⟨10, 0⟩], [⟨30, 1⟩], rfl, ?_⟩
  cases last <;> simp

/-- C27 is also false for queries, which start from the default of priority `0`: a single modifier of
negative priority, or of priority `0` when the first should win, is ignored. -/
theorem C27_default_hides_modifiers (T : Type) (d x : T) (p : Int) :
    (p < 0 → ∀ last, (prioritized T d last).join (prioritized T d last).default ⟨x, p⟩ = .ok ⟨d, 0⟩) ∧
    ((prioritized T d false).join (prioritized T d false).default ⟨x, 0⟩ = .ok ⟨d, 0⟩) := by
  constructor
  · intro hp last
    have h1 : ¬ (0 ≤ p) := by omega
    have h2 : ¬ (0 < p) := by omega
    cases last <;> simp [h1, h2]
  · simp

/-- C27, the part that holds: joining two base values evaluates to the first or last of highest priority.
Missing: three or more values, refuted above. -/
theorem C27_two_values_partial (T : Type) (d : T) (last : Bool) (a b : Prioritized T) :
    ∃ v out w, (prioritized T d last).join ((prioritized T d last).fromBase a) ((prioritized T d last).fromBase b) =
        .ok v ∧ (prioritized T d last).eval v = .ok out ∧
      out = w.value ∧ IsPrioritized last [a, b] w := by
  cases last
  · by_cases h : a.priority < b.priority
    · exact ⟨_, _, b, rfl, rfl, by simp [h], [a], [], rfl, by simp [h]⟩
    · exact ⟨_, _, a, rfl, rfl, by simp [h], [], [b], rfl, by simpa using h⟩
  · by_cases h : a.priority ≤ b.priority
    · exact ⟨_, _, b, rfl, rfl, by simp [h], [a], [], rfl, by simp [h]⟩
    · exact ⟨_, _, a, rfl, rfl, by simp [h], [], [b], rfl, by simpa using h⟩

/-- C27, a larger part that holds: any list whose first value has no higher priority than the rest, all of which
share one priority — `LAST = true` picks the last of them.  Missing as above. -/
theorem C27_equal_priorities_partial (T : Type) (d : T) (a b : Prioritized T) (l : List (Prioritized T))
    (h : a.priority ≤ b.priority) (hl : ∀ x ∈ l, x.priority = b.priority) :
    ∃ v out w, joinList (prioritized T d true) a (l ++ [b]) = .ok v ∧
      (prioritized T d true).eval v = .ok out ∧ out = w.value ∧ IsPrioritized true (a :: (l ++ [b])) w := by
  refine ⟨_, _, b, C27_actual T d true a (l ++ [b]), rfl, ?_, a :: l, [], by simp, ?_⟩
  · simp [prioritizedFold, List.filter_append, h]
  · simp only [if_true, List.not_mem_nil, false_imp_iff, implies_true, and_true, List.mem_cons,
      forall_eq_or_imp]
    exact ⟨h, fun x hx => (hl x hx).le⟩

theorem IsPrioritized.iff {T : Type} {last : Bool} {l : List (Prioritized T)} {w : Prioritized T} :
    IsPrioritized last l w ↔ ∃ pre post, l = pre ++ w :: post ∧ (∀ x ∈ pre, x.Yields last w) ∧
      ∀ y ∈ post, ¬ w.Yields last y := by
  cases last <;> simp [IsPrioritized, Prioritized.Yields, not_lt, not_le]

theorem Prioritized.Yields.trans {T : Type} {last : Bool} {a b c : Prioritized T} (h1 : a.Yields last b)
    (h2 : b.Yields last c) : a.Yields last c := by
  cases last
  · exact lt_trans (show _ < _ from h1) (show _ < _ from h2)
  · exact le_trans (show _ ≤ _ from h1) (show _ ≤ _ from h2)

theorem split_last {α : Type} (P : α → Prop) (l : List α) :
    (∀ y ∈ l, ¬ P y) ∨ ∃ pre m post, l = pre ++ m :: post ∧ P m ∧ ∀ y ∈ post, ¬ P y := by
  induction l with
  | nil => exact .inl fun y hy => by cases hy
  | cons x l ih =>
    rcases ih with h | ⟨pre, m, post, rfl, h1, h2⟩
    · by_cases hx : P x
      · exact .inr ⟨[], x, l, rfl, hx, h⟩
      · exact .inl fun y hy => by rcases List.mem_cons.1 hy with rfl | hy; exacts [hx, h y hy]
    · exact .inr ⟨x :: pre, m, post, rfl, h1, h2⟩

theorem prioritizedFold_none {T : Type} {last : Bool} {v : Prioritized T} {l : List (Prioritized T)}
    (h : ∀ y ∈ l, ¬ v.Yields last y) : prioritizedFold last v l = v.value := by
  have : (l.filter fun x => if last then decide (v.priority ≤ x.priority) else decide (v.priority < x.priority))
      = [] := by
    refine List.filter_eq_nil_iff.2 fun y hy => ?_
    have := h y hy
    cases last <;> simpa [Prioritized.Yields] using this
  simp [prioritizedFold, this]

theorem prioritizedFold_last {T : Type} {last : Bool} {v m : Prioritized T} {pre post : List (Prioritized T)}
    (hm : v.Yields last m) (h : ∀ y ∈ post, ¬ v.Yields last y) :
    prioritizedFold last v (pre ++ m :: post) = m.value := by
  have h1 : (post.filter fun x => if last then decide (v.priority ≤ x.priority)
      else decide (v.priority < x.priority)) = [] := by
    refine List.filter_eq_nil_iff.2 fun y hy => ?_
    have := h y hy
    cases last <;> simpa [Prioritized.Yields] using this
  have h2 : (if last then decide (v.priority ≤ m.priority) else decide (v.priority < m.priority)) = true := by
    cases last <;> simpa [Prioritized.Yields] using hm
  simp only [prioritizedFold, List.filter_append, List.filter_cons, h1, h2, if_true]
  simp

/-- C27, the part that holds: if nothing takes over from the first value, or the last value that does so also takes
over from everything before it, the outcome is that of highest priority.  Missing: by `C27_iff`, all other lists of
values that can be told apart. -/
theorem C27_taken_over_partial (T : Type) (d : T) (last : Bool) (v : Prioritized T) (l : List (Prioritized T))
    (h : (∀ y ∈ l, ¬ v.Yields last y) ∨
      ∃ pre m post, l = pre ++ m :: post ∧ v.Yields last m ∧ (∀ y ∈ post, ¬ v.Yields last y) ∧
        ∀ x ∈ pre, x.Yields last m) :
    ∃ x w, joinList (prioritized T d last) v l = .ok x ∧ (prioritized T d last).eval x = .ok w.value ∧
        IsPrioritized last (v :: l) w := by
  rcases h with h | ⟨pre, m, post, rfl, h1, h2, h3⟩
  · refine ⟨_, v, C27_actual T d last v l, congrArg Except.ok (prioritizedFold_none h), IsPrioritized.iff.2 ?_⟩
    exact ⟨[], l, rfl, fun x hx => (by cases hx), h⟩
  · refine ⟨_, m, C27_actual T d last v _, congrArg Except.ok (prioritizedFold_last h1 h2), IsPrioritized.iff.2 ?_⟩
    exact ⟨v :: pre, post, rfl, fun x hx => by rcases List.mem_cons.1 hx with rfl | hx; exacts [h1, h3 x hx],
      fun y hy h4 => h2 y hy (h1.trans h4)⟩

/-- C27, exactly when it holds: either nothing takes over from the first value, or the last value that does so also
takes over from everything before it.  (The values being told apart; see `C27_taken_over_partial` for values that
are not.) -/
theorem C27_iff (T : Type) (d : T) (last : Bool) (v : Prioritized T) (l : List (Prioritized T))
    (hd : ((v :: l).map Prioritized.value).Nodup) :
    (∃ x w, joinList (prioritized T d last) v l = .ok x ∧ (prioritized T d last).eval x = .ok w.value ∧
        IsPrioritized last (v :: l) w) ↔
      (∀ y ∈ l, ¬ v.Yields last y) ∨
      ∃ pre m post, l = pre ++ m :: post ∧ v.Yields last m ∧ (∀ y ∈ post, ¬ v.Yields last y) ∧
        ∀ x ∈ pre, x.Yields last m := by
  constructor
  · rintro ⟨x, w, hx, hw, hp⟩
    rw [C27_actual] at hx
    cases hx
    have hw : prioritizedFold last v l = w.value := Except.ok.inj hw
    rcases split_last (v.Yields last ·) l with h | ⟨pre, m, post, rfl, h1, h2⟩
    · exact .inl h
    · refine .inr ⟨pre, m, post, rfl, h1, h2, ?_⟩
      rw [prioritizedFold_last h1 h2] at hw
      obtain ⟨pre', post', h3, h4, -⟩ := IsPrioritized.iff.1 hp
      have hmem : w ∈ v :: (pre ++ m :: post) := by rw [h3]; simp
      have hwm : w = m := List.inj_on_of_nodup_map hd hmem (by simp) hw.symm
      subst hwm
      have hn := hd.of_map
      have h5 : (v :: pre) ++ w :: post = pre' ++ w :: post' := h3
      have hn1 : w ∉ v :: pre := by
        intro hw'
        rw [show v :: (pre ++ w :: post) = (v :: pre) ++ w :: post from rfl] at hn
        exact (List.nodup_append.1 hn).2.2 w hw' w (by simp) rfl
      have hn2 : w ∉ post := by
        rw [show v :: (pre ++ w :: post) = (v :: pre) ++ w :: post from rfl] at hn
        exact (List.nodup_cons.1 (List.nodup_append.1 hn).2.1).1
      obtain ⟨rfl, -, -⟩ := (List.append_cons_inj_of_notMem hn1 hn2).1 h5
      exact fun x hx => h4 x (by simp [hx])
  · exact C27_taken_over_partial T d last v l

/-- `0, 1, 2` is fine and `0, 2, 1` is not -/
example (last : Bool) : (∀ y ∈ [⟨20, 1⟩, ⟨30, 2⟩], ¬ (⟨10, 0⟩ : Prioritized Nat).Yields last y) ∨
    ∃ pre m post, [⟨20, 1⟩, ⟨30, 2⟩] = pre ++ m :: post ∧ (⟨10, 0⟩ : Prioritized Nat).Yields last m ∧
      (∀ y ∈ post, ¬ (⟨10, 0⟩ : Prioritized Nat).Yields last y) ∧ ∀ x ∈ pre, x.Yields last m :=
  .inr ⟨[⟨20, 1⟩], ⟨30, 2⟩, [], rfl, by cases last <;> simp [Prioritized.Yields], by simp, by
    intro x hx; cases List.mem_singleton.1 hx; cases last <;> simp [Prioritized.Yields]⟩

end BSQ
