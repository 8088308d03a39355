import Verif.Proofs.StatInt
/-!
# Properties of `StatInt` (C16) and of integer overflow (C32)
-/
namespace BSQ
open Contrib
set_option linter.unusedSimpArgs false

/-! ## C16 -/

/-- C16: `join` is commutative, for every integer type and build, including when it panics. -/
theorem C16_join_comm (t : NumTy) : JoinComm (statInt t) := by
  intro a b
  simp only [NumTy.add, NumTy.mul, NumTy.max_eq, NumTy.min_eq, add_comm b.addend, mul_comm b.mult,
    max_comm b.min, min_comm b.max]

/-- C16: `join` is associative on primitive integers (with overflow checks: whenever neither side
overflows; in release builds: always). -/
theorem C16_join_assoc (t : NumTy) (hk : t.kind = .prim) (hb : 1 < t.prim.bits) :
    JoinAssoc (statInt t) (StatInt.WF t) := by
  intro a b c x y ha hb' hc h1 h2
  simp only [Res.bind_eq_ok, Except.ok.injEq] at h1 h2
  obtain ⟨ab, ⟨s1, hs1, m1, hm1, rfl⟩, s2, hs2, m2, hm2, rfl⟩ := h1
  obtain ⟨bc, ⟨u1, hu1, n1, hn1, rfl⟩, u2, hu2, n2, hn2, rfl⟩ := h2
  simp only [NumTy.max_eq, NumTy.min_eq, max_assoc, min_assoc, StatInt.mk.injEq, true_and, and_true]
  simp only [NumTy.add, NumTy.mul] at *
  cases hbd : t.build with
  | debug =>
    have ho := NumTy.ovf_of_prim_debug hk hbd
    rw [NumTy.fit_panic ho] at *
    obtain ⟨rfl, -⟩ := hs1; obtain ⟨rfl, -⟩ := hs2; obtain ⟨rfl, -⟩ := hm1; obtain ⟨rfl, -⟩ := hm2
    obtain ⟨rfl, -⟩ := hu1; obtain ⟨rfl, -⟩ := hu2; obtain ⟨rfl, -⟩ := hn1; obtain ⟨rfl, -⟩ := hn2
    exact ⟨add_assoc _ _ _, mul_assoc _ _ _⟩
  | release =>
    have ho : t.ovf = .wrap := by simp [NumTy.ovf, hk, hbd]
    rw [NumTy.fit_wrap ho (by omega)] at *
    simp only [Except.ok.injEq] at *
    subst hs1 hs2 hm1 hm2 hu1 hu2 hn1 hn2
    simp [add_assoc, mul_assoc]

/-- C16: the default value is the identity of `join`. -/
theorem C16_default_unit (t : NumTy) : DefaultUnit (statInt t) (StatInt.WF t) := by
  intro v h
  have h1 := h.min.1; have h2 := h.max.2
  constructor
  · simp [NumTy.add, NumTy.mul, NumTy.fit_inRange h.addend, NumTy.fit_inRange h.mult, NumTy.max_eq,
      NumTy.min_eq, NumTy.minValue, NumTy.maxValue, h1, h2]
  · simp [NumTy.add, NumTy.mul, NumTy.fit_inRange h.addend, NumTy.fit_inRange h.mult, NumTy.max_eq,
      NumTy.min_eq, NumTy.minValue, NumTy.maxValue, h1, h2]

/-- C16: any two ways of assembling a `StatInt` over a primitive integer from the same operations, in
any order and any grouping into joins, give the same value (with overflow checks: whenever neither
overflows). -/
theorem C16_unordered (t : NumTy) (hk : t.kind = .prim) (hb : 1 < t.prim.bits) :
    Unordered (statInt t) (fun o => t.prim.InRange (statInt.contrib o).num) := by
  cases hbd : t.build with
  | debug => exact StatInt.unordered (IntNorm.exact (NumTy.ovf_of_prim_debug hk hbd))
  | release => exact StatInt.unordered (IntNorm.wrapping (by simp [NumTy.ovf, hk, hbd]) hb)

/-- C16: closed form with overflow checks: the evaluation is (sum of addends) × (product of
multipliers), clamped to the tightest bounds, the lower bound winning. -/
theorem C16_closed_form (t : NumTy) (h : t.ovf = .panic) (tr : Tree (statInt t)) (hr : tr.NoReset)
    (hok : ∀ o ∈ tr.leaves, t.prim.InRange (statInt.contrib o).num) (v : StatInt) (out : Int)
    (hv : tr.run = .ok v) (he : (statInt t).eval v = .ok out) :
    let C := tr.leaves.map statInt.contrib
    out = clampTo (total C * product C) (floorOf t.prim.lo C) (capOf t.prim.hi C) := by
  have rep := StatInt.rep (IntNorm.exact h) tr v hr hok hv
  obtain ⟨_, _, a1, a2, a3, a4⟩ := rep
  simp only [Res.bind_eq_ok, NumTy.mul, NumTy.fit_panic h, Except.ok.injEq] at he
  obtain ⟨x, ⟨rfl, -⟩, rfl⟩ := he
  simp only [NumTy.max_eq, NumTy.min_eq, clampTo, a1, a2, a3, a4]
  rfl

/-- C16: if the magnitudes of the operands multiply out within the type, then no order of assembly
overflows and each evaluates to the closed form. -/
theorem C16_no_overflow (t : NumTy) (h : t.ovf = .panic) (tr : Tree (statInt t)) (hr : tr.NoReset)
    (hok : ∀ o ∈ tr.leaves, t.prim.InRange (statInt.contrib o).num)
    (hT : absTotal (tr.leaves.map statInt.contrib) ≤ t.prim.hi)
    (hP : absProduct (tr.leaves.map statInt.contrib) ≤ t.prim.hi)
    (hTP : absTotal (tr.leaves.map statInt.contrib) * absProduct (tr.leaves.map statInt.contrib)
      ≤ t.prim.hi) :
    let C := tr.leaves.map statInt.contrib
    ∃ v, tr.run = .ok v ∧ (statInt t).eval v =
      .ok (clampTo (total C * product C) (floorOf t.prim.lo C) (capOf t.prim.hi C)) := by
  obtain ⟨v, hv⟩ := StatInt.run_ok h tr hr hok hT hP
  refine ⟨v, hv, ?_⟩
  have rep := StatInt.rep (IntNorm.exact h) tr v hr hok hv
  obtain ⟨_, _, a1, a2, a3, a4⟩ := rep
  have hin : t.prim.InRange (total (statInt.contribs tr.leaves) * product (statInt.contribs tr.leaves)) := by
    apply IntTy.inRange_of_abs
    · rw [abs_mul]
      exact (mul_le_mul (abs_total_le _) (abs_product_le _) (abs_nonneg _) (absTotal_nonneg _)).trans hTP
    · intro hs
      exact Int.mul_nonneg (nonneg_total hs _ (contribs_inRange hok))
        (nonneg_product hs _ (contribs_inRange hok))
  have a1' : v.addend = total (statInt.contribs tr.leaves) := a1
  have a2' : v.mult = product (statInt.contribs tr.leaves) := a2
  simp only [NumTy.mul, a1', a2', NumTy.fit_inRange hin, Res.bind_ok, NumTy.max_eq, NumTy.min_eq,
    clampTo, a3, a4]
  rfl

/-- C16: closed form in release builds and for `Wrapping<T>`: never panics, and the product is the
exact one modulo the width. -/
theorem C16_closed_form_wrapping (t : NumTy) (h : t.ovf = .wrap) (hb : 1 < t.prim.bits)
    (tr : Tree (statInt t)) (hr : tr.NoReset)
    (hok : ∀ o ∈ tr.leaves, t.prim.InRange (statInt.contrib o).num) :
    let C := tr.leaves.map statInt.contrib
    ∃ v, tr.run = .ok v ∧ (statInt t).eval v =
      .ok (clampTo (t.prim.wrap (total C * product C)) (floorOf t.prim.lo C) (capOf t.prim.hi C)) := by
  obtain ⟨v, hv⟩ := StatInt.run_total (by simp [h]) tr
  refine ⟨v, hv, ?_⟩
  obtain ⟨_, _, a1, a2, a3, a4⟩ := StatInt.rep (IntNorm.wrapping h hb) tr v hr hok hv
  have a1' : v.addend = t.prim.wrap (total (statInt.contribs tr.leaves)) := a1
  have a2' : v.mult = t.prim.wrap (product (statInt.contribs tr.leaves)) := a2
  simp only [NumTy.mul, a1', a2', NumTy.fit_wrap h (by omega : 0 < t.prim.bits), Res.bind_ok,
    NumTy.max_eq, NumTy.min_eq, clampTo, a3, a4, IntTy.wrap_wrap_mul, IntTy.wrap_mul_wrap]
  rfl

/-- `i32` with overflow checks -/
abbrev i32Debug : NumTy := ⟨.i32, .prim, .debug⟩

/-- the README's `(12 * 4).min(99).max(0)`: a case the hypotheses of C16 admit -/
example :
    let ops : List (StatOp (statInt i32Debug)) := [.add 12, .max 99, .mul 4, .min 0]
    let tr := Tree.ofList ops
    tr.NoReset ∧ (∀ o ∈ tr.leaves, i32Debug.prim.InRange (statInt.contrib o).num) ∧
    absTotal (tr.leaves.map statInt.contrib) * absProduct (tr.leaves.map statInt.contrib)
      ≤ i32Debug.prim.hi ∧
    (tr.run >>= fun v => (statInt i32Debug).eval v) = .ok 48 := by
  refine ⟨?_, ?_, ?_, ?_⟩
  · simp [Tree.noReset_ofList, StatOp.IsBase]
  · simp [statInt.contrib, Contrib.num]; decide
  · simp [statInt.contrib, absTotal, absProduct]; decide
  · rfl

/-! ## C32 -/

/-- three additions whose sum is representable while a partial sum is not -/
def overflowOps (t : NumTy) : List (StatOp (statInt t)) := [.add t.prim.hi, .add 1, .add (-1)]
def overflowOps' (t : NumTy) : List (StatOp (statInt t)) := [.add t.prim.hi, .add (-1), .add 1]

/-- C32 fails for `Saturating<iN>`, every width: two orders of the same three additions evaluate
differently (`MAX - 1` and `MAX`). -/
theorem C32_signed_saturating_order_matters (t : NumTy) (h : t.kind = .saturating)
    (hs : t.prim.signed = true) (hb : 1 < t.prim.bits) :
    (overflowOps t).Perm (overflowOps' t) ∧
    (∃ v, (Tree.ofList (overflowOps t)).run = .ok v ∧ (statInt t).eval v = .ok (t.prim.hi - 1)) ∧
    (∃ v, (Tree.ofList (overflowOps' t)).run = .ok v ∧ (statInt t).eval v = .ok t.prim.hi) := by
  have ho : t.ovf = .sat := by simp [NumTy.ovf, h]
  obtain ⟨n, hn⟩ : ∃ n, t.prim.bits = n + 2 := ⟨t.prim.bits - 2, by omega⟩
  have hp := IntTy.two_pow_pos n
  have hlo : t.prim.lo = -(2 * 2 ^ n) := by
    simp only [IntTy.lo, hs, hn, if_true, show n + 2 - 1 = n + 1 from rfl, pow_succ]; ring
  have hhi : t.prim.hi = 2 * 2 ^ n - 1 := by
    simp only [IntTy.hi, hs, hn, if_true, show n + 2 - 1 = n + 1 from rfl, pow_succ]; ring
  refine ⟨List.Perm.cons _ (List.Perm.swap _ _ _), ?_, ?_⟩
  · refine ⟨⟨t.prim.hi - 1, t.prim.lo, t.prim.hi, 1⟩, ?_, ?_⟩
    · simp only [overflowOps, Tree.ofList, List.foldl, Tree.run, Res.bind_ok, StatOp.writeTo, NumTy.add,
        NumTy.fit_sat ho, NumTy.minValue, NumTy.maxValue, Except.ok.injEq, StatInt.mk.injEq, and_true,
        true_and]
      omega
    · simp only [NumTy.mul, NumTy.fit_sat ho, Res.bind_ok, NumTy.max_eq, NumTy.min_eq,
        Except.ok.injEq]
      omega
  · refine ⟨⟨t.prim.hi, t.prim.lo, t.prim.hi, 1⟩, ?_, ?_⟩
    · simp only [overflowOps', Tree.ofList, List.foldl, Tree.run, Res.bind_ok, StatOp.writeTo, NumTy.add,
        NumTy.fit_sat ho, NumTy.minValue, NumTy.maxValue, Except.ok.injEq, StatInt.mk.injEq, and_true,
        true_and]
      omega
    · simp only [NumTy.mul, NumTy.fit_sat ho, Res.bind_ok, NumTy.max_eq, NumTy.min_eq,
        Except.ok.injEq]
      omega

/-- C32 fails for signed primitives with overflow checks, every width: one order of the same three
additions panics, the other evaluates to `MAX`. -/
theorem C32_debug_panic_depends_on_order (t : NumTy) (h : t.ovf = .panic)
    (hs : t.prim.signed = true) (hb : 1 < t.prim.bits) :
    (overflowOps t).Perm (overflowOps' t) ∧
    (Tree.ofList (overflowOps t)).run = .error .panic ∧
    (∃ v, (Tree.ofList (overflowOps' t)).run = .ok v ∧ (statInt t).eval v = .ok t.prim.hi) := by
  obtain ⟨n, hn⟩ : ∃ n, t.prim.bits = n + 2 := ⟨t.prim.bits - 2, by omega⟩
  have hp := IntTy.two_pow_pos n
  have hlo : t.prim.lo = -(2 * 2 ^ n) := by
    simp only [IntTy.lo, hs, hn, if_true, show n + 2 - 1 = n + 1 from rfl, pow_succ]; ring
  have hhi : t.prim.hi = 2 * 2 ^ n - 1 := by
    simp only [IntTy.hi, hs, hn, if_true, show n + 2 - 1 = n + 1 from rfl, pow_succ]; ring
  have f0 : t.fit t.prim.hi = .ok t.prim.hi := NumTy.fit_inRange ⟨by omega, by omega⟩
  have f1 : t.fit (t.prim.hi + 1) = .error .panic := by
    have : ¬ t.prim.InRange (t.prim.hi + 1) := fun h => by have := h.2; omega
    simp [NumTy.fit, this, h]
  have f2 : t.fit (t.prim.hi + -1) = .ok (t.prim.hi + -1) := NumTy.fit_inRange ⟨by omega, by omega⟩
  refine ⟨List.Perm.cons _ (List.Perm.swap _ _ _), ?_, ⟨t.prim.hi, t.prim.lo, t.prim.hi, 1⟩, ?_, ?_⟩
  · simp only [overflowOps, Tree.ofList, List.foldl, Tree.run, Res.bind_ok, StatOp.writeTo, NumTy.add,
      zero_add, f0, f1]
    rfl
  · simp only [overflowOps', Tree.ofList, List.foldl, Tree.run, Res.bind_ok, StatOp.writeTo, NumTy.add,
      zero_add, f0, f2, show t.prim.hi + -1 + 1 = t.prim.hi by omega, NumTy.minValue, NumTy.maxValue]
  · simp only [NumTy.mul, mul_one, f0, Res.bind_ok, NumTy.max_eq, NumTy.min_eq, Except.ok.injEq]
    omega

/-- C32 holds for every integer type other than `Saturating<iN>`, restricted (for primitives with
overflow checks) to orders that do not panic.  Missing from the full claim: the two cases refuted above. -/
theorem C32_order_independent_partial (t : NumTy) (hb : 1 < t.prim.bits)
    (h : ¬ (t.kind = .saturating ∧ t.prim.signed = true)) :
    Unordered (statInt t) (fun o => t.prim.InRange (statInt.contrib o).num) := by
  cases ho : t.ovf with
  | panic => exact StatInt.unordered (IntNorm.exact ho)
  | wrap => exact StatInt.unordered (IntNorm.wrapping ho hb)
  | sat =>
    have hk : t.kind = .saturating := by
      revert ho; unfold NumTy.ovf
      cases t.kind <;> cases t.build <;> simp
    exact StatInt.unordered (IntNorm.saturating ho (by simpa [hk] using h) hb)

/-- C32: outside primitives with overflow checks nothing ever panics, so the order independence above
is unconditional there. -/
theorem C32_never_panics_partial (t : NumTy) (h : ¬ (t.kind = .prim ∧ t.build = .debug))
    (tr : Tree (statInt t)) : ∃ v, tr.run = .ok v ∧ ∃ out, (statInt t).eval v = .ok out := by
  have ho : t.ovf ≠ .panic := by
    unfold NumTy.ovf; revert h
    cases t.kind <;> cases t.build <;> simp
  obtain ⟨v, hv⟩ := StatInt.run_total ho tr
  obtain ⟨y, hy⟩ := NumTy.fit_ne_panic ho (v.addend * v.mult)
  exact ⟨v, hv, t.max (t.min y v.max) v.min, by simp only [NumTy.mul, hy, Res.bind_ok]⟩

/-- `Wrapping<u8>`: overflowing additions in two orders agree -/
example : (⟨.u8, .wrapping, .debug⟩ : NumTy).ovf = .wrap ∧
    ((Tree.ofList (D := statInt ⟨.u8, .wrapping, .debug⟩) [.add 200, .mul 3, .add 100]).run >>=
      fun v => (statInt ⟨.u8, .wrapping, .debug⟩).eval v) = .ok 132 ∧
    ((Tree.ofList (D := statInt ⟨.u8, .wrapping, .debug⟩) [.add 100, .add 200, .mul 3]).run >>=
      fun v => (statInt ⟨.u8, .wrapping, .debug⟩).eval v) = .ok 132 := by
  refine ⟨rfl, ?_, ?_⟩ <;> decide

end BSQ
