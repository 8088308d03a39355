import Verif.Proofs.FracStats
import Verif.Props.Rounding
import Verif.Props.StatInt
/-!
# Properties of the fraction and percentage stats (C20, C21, C22)

Arithmetic is with overflow checks (`t.ovf = .panic`): the theorems speak of the outcome whenever no
intermediate result overflows.  `C61_*` carries them to release builds, `Wrapping` and `Saturating`.
-/
namespace BSQ
open Contrib
set_option linter.unusedSimpArgs false

theorem Frac.toInteger_int {t : NumTy} (h : t.ovf = .panic) {z w : Int}
    (e : Frac.toInteger t ⟨z, 1⟩ = .ok w) : w = z := by
  simp only [Frac.toInteger, Res.bind_eq_ok] at e
  obtain ⟨x, hx, e⟩ := e
  rw [Frac.trunc_ok h hx] at e
  cases e; simp

/-! ## C21: `StatIntFraction` -/

/-- C21: `join` is commutative, panics included. -/
theorem C21_join_comm (t : NumTy) (R : Rounding) : JoinComm (statIntFraction t R) := by
  intro a b
  simp only [NumTy.add, NumTy.max_eq, NumTy.min_eq, add_comm b.addend, Frac.mul_comm b.mult,
    max_comm b.min, min_comm b.max]

/-- C21: `join` is associative whenever neither side overflows. -/
theorem C21_join_assoc (t : NumTy) (h : t.ovf = .panic) (hb : 1 < t.prim.bits) (R : Rounding) :
    JoinAssoc (statIntFraction t R) (StatIntFraction.WF t) :=
  (statIntFraction.model h hb R).join_assoc (statIntFraction.inj h hb R)

/-- C21: the default value is the identity of `join`, without overflow, in each build and for each kind
of integer. -/
theorem C21_default_unit (t : NumTy) (hb : 1 < t.prim.bits) (R : Rounding) :
    DefaultUnit (statIntFraction t R) (StatIntFraction.WF t) := by
  intro v h
  have h1 := h.min.1; have h2 := h.max.2
  have hm : v.mult.Valid t.primInt := h.mult
  have hb' : 1 < t.primInt.prim.bits := hb
  have e1 := Frac.one_mul hb' hm
  have e2 := Frac.mul_one hb' hm
  constructor
  · simp [NumTy.add, NumTy.fit_inRange h.addend, NumTy.max_eq, NumTy.min_eq, NumTy.minValue,
      NumTy.maxValue, h1, h2, Frac.ops, Frac.newRaw, e1]
  · simp [NumTy.add, NumTy.fit_inRange h.addend, NumTy.max_eq, NumTy.min_eq, NumTy.minValue,
      NumTy.maxValue, h1, h2, Frac.ops, Frac.newRaw, e2]

/-- C21: any two ways of assembling a value from the same operations agree whenever neither overflows. -/
theorem C21_unordered (t : NumTy) (h : t.ovf = .panic) (hb : 1 < t.prim.bits) (R : Rounding) :
    Unordered (statIntFraction t R) statIntFraction.okOp :=
  (statIntFraction.model h hb R).unordered (statIntFraction.inj h hb R)

/-- C21: the evaluation is the exact rational (sum of addends) × (product of fractions), rounded by the
chosen mode, clamped, the lower bound winning. -/
theorem C21_closed_form (t : NumTy) (h : t.ovf = .panic) (hb : 1 < t.prim.bits) (R : Rounding)
    (tr : Tree (statIntFraction t R)) (hr : tr.NoReset) (hok : ∀ o ∈ tr.leaves, statIntFraction.okOp o)
    (v : StatIntFraction) (out : Int) (hv : tr.run = .ok v)
    (he : (statIntFraction t R).eval v = .ok out) :
    let C := tr.leaves.map statIntFraction.contrib
    ∃ z : ℤ, Rounds R (((total C : ℤ) : ℚ) * product C) z ∧
      out = clampTo z (floorOf t.prim.lo C) (capOf t.prim.hi C) := by
  obtain ⟨wf, a1, a2, a3, a4⟩ := (statIntFraction.model h hb R).rep tr v hr hok hv
  simp only [Res.bind_eq_ok, NumTy.primInt_of_panic h, NumTy.fromFraction, NumTy.intoFraction,
    Frac.newRaw] at he
  obtain ⟨x, hx, r, hrr, i, hi, he⟩ := he
  obtain ⟨k1, k2⟩ := Frac.mul_ok h wf.mult.1 (Frac.wf_int v.addend) hx
  obtain ⟨z, rfl, hz⟩ := Frac.apply_ok h R k1 hrr
  have := Frac.toInteger_int h hi
  subst this
  cases he
  refine ⟨i, ?_, ?_⟩
  · rw [k2, Frac.toRat_int, _root_.mul_comm] at hz
    have a1' : v.addend = total (tr.leaves.map statIntFraction.contrib) := a1
    have a2' : v.mult.toRat = product (tr.leaves.map statIntFraction.contrib) := a2
    rw [← a1', ← a2']; exact hz
  · have a3' : v.min = floorOf t.prim.lo (tr.leaves.map statIntFraction.contrib) := a3
    have a4' : v.max = capOf t.prim.hi (tr.leaves.map statIntFraction.contrib) := a4
    rw [NumTy.max_eq, NumTy.min_eq, ← a3', ← a4']; rfl

/-- `(10 + 5) * 3/2 * 1/2 = 45/4`, floored: `11` -/
example : let t : NumTy := ⟨.i32, .prim, .debug⟩
    let tr : Tree (statIntFraction t .floor) := .join (.op (.base 10) (.mul ⟨3, 2⟩))
      (.op (.op .dflt (.mul ⟨1, 2⟩)) (.add 5))
    tr.NoReset ∧ (∀ o ∈ tr.leaves, statIntFraction.okOp o) ∧
    (tr.run >>= fun v => (statIntFraction t .floor).eval v) = .ok 11 := by
  refine ⟨by simp [Tree.NoReset, StatOp.IsBase], ?_, by decide⟩
  simp only [Tree.leaves, List.append_assoc, List.mem_append, List.mem_singleton, List.not_mem_nil, or_false,
    false_or]
  rintro o (rfl | rfl | rfl | rfl)
  · show IntTy.InRange _ _; decide
  · exact ⟨⟨by decide, by decide⟩, by decide, by decide⟩
  · exact ⟨⟨by decide, by decide⟩, by decide, by decide⟩
  · show IntTy.InRange _ _; decide

/-! ## C20: `StatIntPercentAdditive` -/

/-- C20: `join` is commutative, panics included. -/
theorem C20_join_comm (t : NumTy) (R : Rounding) (S : Int) : JoinComm (statIntPercentAdditive t R S) := by
  intro a b
  simp only [NumTy.add, NumTy.max_eq, NumTy.min_eq, add_comm b.addend, add_comm b.mult,
    max_comm b.min, min_comm b.max]

/-- C20: `join` is associative whenever neither side overflows. -/
theorem C20_join_assoc (t : NumTy) (h : t.ovf = .panic) (hb : 1 < t.prim.bits) (R : Rounding) (S : Int) :
    JoinAssoc (statIntPercentAdditive t R S) (StatIntPercentAdditive.WF t) :=
  (statIntPercentAdditive.model h hb R S).join_assoc (statIntPercentAdditive.inj h hb R S)

/-- C20: the default value is the identity of `join`. -/
theorem C20_default_unit (t : NumTy) (R : Rounding) (S : Int) :
    DefaultUnit (statIntPercentAdditive t R S) (StatIntPercentAdditive.WF t) := by
  intro v h
  have h1 := h.min.1; have h2 := h.max.2
  constructor
  · simp [NumTy.add, NumTy.fit_inRange h.addend, NumTy.fit_inRange h.mult, NumTy.max_eq, NumTy.min_eq,
      NumTy.minValue, NumTy.maxValue, h1, h2]
  · simp [NumTy.add, NumTy.fit_inRange h.addend, NumTy.fit_inRange h.mult, NumTy.max_eq, NumTy.min_eq,
      NumTy.minValue, NumTy.maxValue, h1, h2]

/-- C20: any two ways of assembling a value from the same operations agree whenever neither overflows. -/
theorem C20_unordered (t : NumTy) (h : t.ovf = .panic) (hb : 1 < t.prim.bits) (R : Rounding) (S : Int) :
    Unordered (statIntPercentAdditive t R S) statIntPercentAdditive.okOp :=
  (statIntPercentAdditive.model h hb R S).unordered (statIntPercentAdditive.inj h hb R S)

/-- C20: for a scale that fits the integer type, the evaluation is the exact rational
`addends * (SCALE + percents) / SCALE`, rounded by the chosen mode, clamped, the lower bound winning. -/
theorem C20_closed_form (t : NumTy) (h : t.ovf = .panic) (hb : 1 < t.prim.bits) (R : Rounding) (S : Int)
    (hS : t.prim.InRange S)
    (tr : Tree (statIntPercentAdditive t R S)) (hr : tr.NoReset)
    (hok : ∀ o ∈ tr.leaves, statIntPercentAdditive.okOp o)
    (v : StatIntPercentAdditive) (out : Int) (hv : tr.run = .ok v)
    (he : (statIntPercentAdditive t R S).eval v = .ok out) :
    let C := tr.leaves.map statIntPercentAdditive.contrib
    S ≠ 0 ∧ ∃ z : ℤ, Rounds R (((total C : ℤ) : ℚ) * ((S : ℚ) + ((multSum C : ℤ) : ℚ)) / (S : ℚ)) z ∧
      out = clampTo z (floorOf t.prim.lo C) (capOf t.prim.hi C) := by
  obtain ⟨wf, a1, a2, a3, a4⟩ := (statIntPercentAdditive.model h hb R S).rep tr v hr hok hv
  have hfS : t.fromI64 S = .ok S := by
    by_cases hw : t.prim.bits ≤ 63 ∨ (t.prim.bits = 64 ∧ t.prim.signed = true)
    · rw [C33_small_types_partial t (by omega) hw]
      unfold nearest
      rw [if_neg (not_lt.2 hS.1), if_neg (not_lt.2 hS.2)]
    · have hp := C33_wide_types_panic t (by cases hs : t.prim.signed <;> simp [hs] at hw <;> simp <;> omega) S
      simp [NumTy.fromFraction, NumTy.buildFraction, hp] at he
  have hC : tr.leaves.map (statIntPercentAdditive.model h hb R S).contrib =
      (tr.leaves.map statIntPercentAdditive.contrib).map asMul := by
    rw [List.map_map]; rfl
  rw [hC] at a1 a2 a3 a4
  rw [total_asMul] at a1
  rw [product_asMul] at a2
  rw [floorOf_asMul] at a3
  rw [capOf_asMul] at a4
  have a2 := Multiplicative.ofAdd.injective a2
  simp only [Res.bind_eq_ok, NumTy.primInt_of_panic h, NumTy.fromFraction, NumTy.buildFraction,
    hfS, Except.ok.injEq, NumTy.add, NumTy.mul, NumTy.fit_panic h] at he
  obtain ⟨_, rfl, m, ⟨rfl, -⟩, n, ⟨rfl, -⟩, _, rfl, f, hf, r, hrr, i, hi, he⟩ := he
  obtain ⟨k0, k1, k2⟩ := Frac.new_ok h hf
  obtain ⟨z, rfl, hz⟩ := Frac.apply_ok h R k1 hrr
  have := Frac.toInteger_int h hi
  subst this
  subst he
  refine ⟨k0, i, ?_, ?_⟩
  · have a1' : v.addend = total (tr.leaves.map statIntPercentAdditive.contrib) := a1
    rw [k2] at hz
    rw [← a1', ← a2]
    have : ((v.addend * (v.mult + S) : ℤ) : ℚ) / S = (v.addend : ℚ) * (S + v.mult) / S := by
      push_cast; ring
    rw [← this]; exact hz
  · have a3' : v.min = floorOf t.prim.lo (tr.leaves.map statIntPercentAdditive.contrib) := a3
    have a4' : v.max = capOf t.prim.hi (tr.leaves.map statIntPercentAdditive.contrib) := a4
    rw [NumTy.max_eq, NumTy.min_eq, ← a3', ← a4']; rfl

/-- `30 * (100 + 15 + 10) / 100 = 37.5`, rounded: `38` -/
example : let t : NumTy := ⟨.i32, .prim, .debug⟩
    let tr : Tree (statIntPercentAdditive t .round 100) := .join (.op (.base 30) (.mul 15)) (.op .dflt (.mul 10))
    tr.NoReset ∧ (∀ o ∈ tr.leaves, statIntPercentAdditive.okOp o) ∧ t.prim.InRange 100 ∧
    (tr.run >>= fun v => (statIntPercentAdditive t .round 100).eval v) = .ok 38 := by
  refine ⟨by simp [Tree.NoReset, StatOp.IsBase], ?_, by decide, by decide⟩
  simp only [Tree.leaves, List.append_assoc, List.mem_append, List.mem_singleton, List.not_mem_nil, or_false,
    false_or]
  rintro o (rfl | rfl | rfl)
  all_goals (show IntTy.InRange _ _; decide)

/-! ## C22: `StatFloat`, `StatFloatAdditive`, `StatMult` over `Fraction` -/

/-- the fraction the result denotes, clamped -/
theorem Frac.clamp_toRat {t : NumTy} {x lo hi : Frac} (hx : x.WF) (hl : lo.WF) (hh : hi.WF) :
    ((Frac.ops t).max ((Frac.ops t).min x hi) lo).toRat = clampTo x.toRat lo.toRat hi.toRat := by
  show (Frac.max (Frac.min x hi) lo).toRat = _
  obtain ⟨w, v⟩ := Frac.min_spec hx hh
  rw [(Frac.max_spec w hl).2, v]; rfl

/-- C22: `join` of each of the three stats is commutative on valid values, panics included. -/
theorem C22_join_comm (t : NumTy) :
    (∀ a b, StatFloat.WF t a → StatFloat.WF t b →
      (statFloat (Frac.ops t)).join a b = (statFloat (Frac.ops t)).join b a) ∧
    (∀ a b, StatFloatAdditive.WF t a → StatFloatAdditive.WF t b →
      (statFloatAdditive (Frac.ops t)).join a b = (statFloatAdditive (Frac.ops t)).join b a) ∧
    (∀ a b, StatMult.WF t a → StatMult.WF t b →
      (statMult (Frac.ops t)).join a b = (statMult (Frac.ops t)).join b a) := by
  have hmax : ∀ {a b : Frac}, a.Valid t → b.Valid t → Frac.max a b = Frac.max b a := fun ha hb =>
    Frac.toRat_inj (Frac.max_valid ha hb).1.1 (Frac.max_valid hb ha).1.1
      (by rw [(Frac.max_valid ha hb).2, (Frac.max_valid hb ha).2, max_comm])
  have hmin : ∀ {a b : Frac}, a.Valid t → b.Valid t → Frac.min a b = Frac.min b a := fun ha hb =>
    Frac.toRat_inj (Frac.min_valid ha hb).1.1 (Frac.min_valid hb ha).1.1
      (by rw [(Frac.min_valid ha hb).2, (Frac.min_valid hb ha).2, min_comm])
  refine ⟨fun a b ha hb => ?_, fun a b ha hb => ?_, fun a b ha hb => ?_⟩
  · simp only [Frac.ops, Frac.add_comm ha.addend hb.addend, Frac.mul_comm a.mult b.mult,
      hmax ha.min hb.min, hmin ha.max hb.max]
  · simp only [Frac.ops, Frac.add_comm ha.addend hb.addend, Frac.add_comm ha.mult hb.mult,
      hmax ha.min hb.min, hmin ha.max hb.max]
  · simp only [Frac.ops, Frac.mul_comm a.mult b.mult, hmax ha.min hb.min, hmin ha.max hb.max]

/-- C22: `join` of each of the three stats is associative whenever neither side overflows. -/
theorem C22_join_assoc (t : NumTy) (h : t.ovf = .panic) (hb : 1 < t.prim.bits) :
    JoinAssoc (statFloat (Frac.ops t)) (StatFloat.WF t) ∧
    JoinAssoc (statFloatAdditive (Frac.ops t)) (StatFloatAdditive.WF t) ∧
    JoinAssoc (statMult (Frac.ops t)) (StatMult.WF t) :=
  ⟨(statFloat.fracModel h hb).join_assoc (statFloat.fracInj h hb),
   (statFloatAdditive.fracModel h hb).join_assoc (statFloatAdditive.fracInj h hb),
   (statMult.fracModel h hb).join_assoc (statMult.fracInj h hb)⟩

/-- bounds within the default bounds -/
def BoundsInside (t : NumTy) (lo hi : Frac) : Prop :=
  (t.prim.lo : ℚ) ≤ lo.toRat ∧ hi.toRat ≤ (t.prim.hi : ℚ)

/-- every representable fraction lies within the default bounds -/
theorem BoundsInside.of_valid {t : NumTy} {lo hi : Frac} (h1 : lo.Valid t) (h2 : hi.Valid t) :
    BoundsInside t lo hi := by
  have key : ∀ {f : Frac}, f.Valid t → (t.prim.lo : ℚ) ≤ f.toRat ∧ f.toRat ≤ (t.prim.hi : ℚ) := by
    intro f hf
    have hd : (1 : ℚ) ≤ f.den := by exact_mod_cast hf.1.pos
    have hd0 : (0 : ℚ) < f.den := by linarith
    have hlo : ((t.prim.lo : ℤ) : ℚ) ≤ f.num := by exact_mod_cast hf.2.1.1
    have hhi : (f.num : ℚ) ≤ (t.prim.hi : ℤ) := by exact_mod_cast hf.2.1.2
    have hn : ((t.prim.lo : ℤ) : ℚ) ≤ 0 := by exact_mod_cast t.prim.lo_nonpos
    have hh : (0 : ℚ) ≤ (t.prim.hi : ℤ) := by exact_mod_cast t.prim.inRange_zero.2
    unfold Frac.toRat
    rw [le_div_iff₀ hd0, div_le_iff₀ hd0]
    constructor <;> nlinarith
  exact ⟨(key h1).1, (key h2).2⟩

theorem Frac.max_lo {t : NumTy} (hb : 1 < t.prim.bits) {a : Frac} (ha : a.Valid t) :
    Frac.max ⟨t.prim.lo, 1⟩ a = a ∧ Frac.max a ⟨t.prim.lo, 1⟩ = a := by
  have hl := Frac.valid_int hb t.prim.inRange_lo
  have hB := (BoundsInside.of_valid ha ha).1
  constructor
  · apply Frac.toRat_inj (Frac.max_valid hl ha).1.1 ha.1
    rw [(Frac.max_valid hl ha).2, Frac.toRat_int, max_eq_right hB]
  · apply Frac.toRat_inj (Frac.max_valid ha hl).1.1 ha.1
    rw [(Frac.max_valid ha hl).2, Frac.toRat_int, max_eq_left hB]

theorem Frac.min_hi {t : NumTy} (hb : 1 < t.prim.bits) {a : Frac} (ha : a.Valid t) :
    Frac.min ⟨t.prim.hi, 1⟩ a = a ∧ Frac.min a ⟨t.prim.hi, 1⟩ = a := by
  have hl := Frac.valid_int hb t.prim.inRange_hi
  have hB := (BoundsInside.of_valid ha ha).2
  constructor
  · apply Frac.toRat_inj (Frac.min_valid hl ha).1.1 ha.1
    rw [(Frac.min_valid hl ha).2, Frac.toRat_int, min_eq_right hB]
  · apply Frac.toRat_inj (Frac.min_valid ha hl).1.1 ha.1
    rw [(Frac.min_valid ha hl).2, Frac.toRat_int, min_eq_left hB]

/-- C22: the default value is the identity of `join` for each of the three stats, without overflow. -/
theorem C22_default_unit (t : NumTy) (hb : 1 < t.prim.bits) :
    DefaultUnit (statFloat (Frac.ops t)) (StatFloat.WF t) ∧
    DefaultUnit (statFloatAdditive (Frac.ops t)) (StatFloatAdditive.WF t) ∧
    DefaultUnit (statMult (Frac.ops t)) (StatMult.WF t) := by
  refine ⟨fun v h => ⟨?_, ?_⟩, fun v h => ⟨?_, ?_⟩, fun v h => ⟨?_, ?_⟩⟩
  all_goals
    have m1 := Frac.max_lo hb h.min
    have m2 := Frac.min_hi hb h.max
  · simp [Frac.ops, Frac.newRaw, NumTy.minValue, NumTy.maxValue, Frac.zero_add hb h.addend,
      Frac.one_mul hb h.mult, m1, m2]
  · simp [Frac.ops, Frac.newRaw, NumTy.minValue, NumTy.maxValue, Frac.add_zero hb h.addend,
      Frac.mul_one hb h.mult, m1, m2]
  · simp [Frac.ops, Frac.newRaw, NumTy.minValue, NumTy.maxValue, Frac.zero_add hb h.addend,
      Frac.zero_add hb h.mult, m1, m2]
  · simp [Frac.ops, Frac.newRaw, NumTy.minValue, NumTy.maxValue, Frac.add_zero hb h.addend,
      Frac.add_zero hb h.mult, m1, m2]
  · simp [Frac.ops, Frac.newRaw, NumTy.minValue, NumTy.maxValue, Frac.one_mul hb h.mult, m1, m2]
  · simp [Frac.ops, Frac.newRaw, NumTy.minValue, NumTy.maxValue, Frac.mul_one hb h.mult, m1, m2]

/-- C22: any two ways of assembling a value from the same operations agree whenever neither overflows. -/
theorem C22_unordered (t : NumTy) (h : t.ovf = .panic) (hb : 1 < t.prim.bits) :
    Unordered (statFloat (Frac.ops t)) statFloat.okOp ∧
    Unordered (statFloatAdditive (Frac.ops t)) statFloatAdditive.okOp ∧
    Unordered (statMult (Frac.ops t)) statMult.okOp :=
  ⟨(statFloat.fracModel h hb).unordered (statFloat.fracInj h hb),
   (statFloatAdditive.fracModel h hb).unordered (statFloatAdditive.fracInj h hb),
   (statMult.fracModel h hb).unordered (statMult.fracInj h hb)⟩

/-- C22: `StatFloat<Fraction>` evaluates to (sum of addends) × (product of multipliers), clamped. -/
theorem C22_closed_form_float (t : NumTy) (h : t.ovf = .panic) (hb : 1 < t.prim.bits)
    (tr : Tree (statFloat (Frac.ops t))) (hr : tr.NoReset) (hok : ∀ o ∈ tr.leaves, statFloat.okOp o)
    (v : StatFloat Frac) (out : Frac) (hv : tr.run = .ok v)
    (he : (statFloat (Frac.ops t)).eval v = .ok out) :
    let C := tr.leaves.map statFloat.fracContrib
    out.toRat = clampTo (total C * product C) (floorOf (t.prim.lo : ℚ) C) (capOf (t.prim.hi : ℚ) C) := by
  obtain ⟨wf, a1, a2, a3, a4⟩ := (statFloat.fracModel h hb).rep tr v hr hok hv
  simp only [Res.bind_eq_ok] at he
  obtain ⟨x, hx, he⟩ := he
  cases he
  obtain ⟨k1, k2⟩ := Frac.mul_ok h wf.addend.1 wf.mult.1 hx
  rw [Frac.clamp_toRat k1 wf.min.1 wf.max.1, k2]
  have a1' : v.addend.toRat = total (tr.leaves.map statFloat.fracContrib) := a1
  have a2' : v.mult.toRat = product (tr.leaves.map statFloat.fracContrib) := a2
  have a3' : v.min.toRat = floorOf (t.prim.lo : ℚ) (tr.leaves.map statFloat.fracContrib) := a3
  have a4' : v.max.toRat = capOf (t.prim.hi : ℚ) (tr.leaves.map statFloat.fracContrib) := a4
  rw [a1', a2', a3', a4']

/-- C22: `StatFloatAdditive<Fraction>` evaluates to (sum of addends) × (1 + sum of multipliers), clamped. -/
theorem C22_closed_form_additive (t : NumTy) (h : t.ovf = .panic) (hb : 1 < t.prim.bits)
    (tr : Tree (statFloatAdditive (Frac.ops t))) (hr : tr.NoReset)
    (hok : ∀ o ∈ tr.leaves, statFloatAdditive.okOp o)
    (v : StatFloatAdditive Frac) (out : Frac) (hv : tr.run = .ok v)
    (he : (statFloatAdditive (Frac.ops t)).eval v = .ok out) :
    let C := tr.leaves.map statFloatAdditive.fracContrib
    out.toRat = clampTo (total C * (1 + multSum C)) (floorOf (t.prim.lo : ℚ) C) (capOf (t.prim.hi : ℚ) C) := by
  obtain ⟨wf, a1, a2, a3, a4⟩ := (statFloatAdditive.fracModel h hb).rep tr v hr hok hv
  have hC : tr.leaves.map (statFloatAdditive.fracModel h hb).contrib =
      (tr.leaves.map statFloatAdditive.fracContrib).map asMul := by
    rw [List.map_map]; rfl
  rw [hC] at a1 a2 a3 a4
  rw [total_asMul] at a1
  rw [product_asMul] at a2
  rw [floorOf_asMul] at a3
  rw [capOf_asMul] at a4
  have a2 := Multiplicative.ofAdd.injective a2
  simp only [Res.bind_eq_ok] at he
  obtain ⟨m, hm, x, hx, he⟩ := he
  cases he
  obtain ⟨j1, j2⟩ := Frac.add_ok h wf.mult.1 (Frac.wf_int 1) hm
  obtain ⟨k1, k2⟩ := Frac.mul_ok h wf.addend.1 j1 hx
  rw [Frac.clamp_toRat k1 wf.min.1 wf.max.1, k2, j2, Frac.toRat_int]
  have a1' : v.addend.toRat = total (tr.leaves.map statFloatAdditive.fracContrib) := a1
  have a3' : v.min.toRat = floorOf (t.prim.lo : ℚ) (tr.leaves.map statFloatAdditive.fracContrib) := a3
  have a4' : v.max.toRat = capOf (t.prim.hi : ℚ) (tr.leaves.map statFloatAdditive.fracContrib) := a4
  rw [a1', a2, a3', a4', Int.cast_one, _root_.add_comm (multSum _) (1 : ℚ)]

/-- C22: `StatMult<Fraction>` evaluates to the product of its multipliers (base included), clamped. -/
theorem C22_closed_form_mult (t : NumTy) (h : t.ovf = .panic) (hb : 1 < t.prim.bits)
    (tr : Tree (statMult (Frac.ops t))) (hr : tr.NoReset) (hok : ∀ o ∈ tr.leaves, statMult.okOp o)
    (v : StatMult Frac) (out : Frac) (hv : tr.run = .ok v)
    (he : (statMult (Frac.ops t)).eval v = .ok out) :
    let C := tr.leaves.map statMult.fracContrib
    out.toRat = clampTo (product C) (floorOf (t.prim.lo : ℚ) C) (capOf (t.prim.hi : ℚ) C) := by
  obtain ⟨wf, a1, a2, a3, a4⟩ := (statMult.fracModel h hb).rep tr v hr hok hv
  simp only [Except.ok.injEq] at he
  subst he
  rw [Frac.clamp_toRat wf.mult.1 wf.min.1 wf.max.1]
  have a2' : v.mult.toRat = product (tr.leaves.map statMult.fracContrib) := a2
  have a3' : v.min.toRat = floorOf (t.prim.lo : ℚ) (tr.leaves.map statMult.fracContrib) := a3
  have a4' : v.max.toRat = capOf (t.prim.hi : ℚ) (tr.leaves.map statMult.fracContrib) := a4
  rw [a2', a3', a4']

/-- `3/2 * (1 + 1/2 + 1/3) = 11/4`, capped at `5/2` -/
example : let t : NumTy := ⟨.i32, .prim, .debug⟩
    let D := statFloatAdditive (Frac.ops t)
    let tr : Tree D := .op (.join (.op (.base ⟨3, 2⟩) (.mul ⟨1, 2⟩)) (.op .dflt (.mul ⟨1, 3⟩))) (.max ⟨5, 2⟩)
    tr.NoReset ∧ (∀ o ∈ tr.leaves, statFloatAdditive.okOp o) ∧
    (tr.run >>= fun v => D.eval v) = .ok ⟨5, 2⟩ := by
  refine ⟨by simp [Tree.NoReset, StatOp.IsBase], ?_, by decide⟩
  simp only [Tree.leaves, List.append_assoc, List.mem_append, List.mem_singleton, List.not_mem_nil, or_false,
    false_or]
  rintro o (rfl | rfl | rfl | rfl)
  all_goals exact ⟨⟨by decide, by decide⟩, by decide, by decide⟩

end BSQ
