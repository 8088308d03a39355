import Verif.Props.Misc
/-!
# C26, exactly: what joined `StatIntPercent` modifiers evaluate to
-/
namespace BSQ
open Contrib

/-- the factor that one stored modifier adds to the multiplier: its percentage, or `1` if it is not a multiplier -/
def statIntPercent.factor {t : NumTy} {R : Rounding} {S : Int} : StatOp (statIntPercent t R S) → ℚ
  | .mul m => (m : ℚ) / S
  | _ => 1

/-- C26, what the code computes when a query joins the stats of stored modifiers `os` into the default: the addends
add up with an extra `1` for the default and for each modifier, and the percentages are *added*, again with an extra `1`
for the default and for each modifier that is not a multiplier; then rounded and clamped. -/
theorem C26_joined_modifiers (t : NumTy) (h : t.ovf = .panic) (hb : 1 < t.prim.bits)
    (hw : t.prim.bits ≤ 63 ∨ (t.prim.bits = 64 ∧ t.prim.signed = true)) (R : Rounding) (S : Int)
    (hS : t.prim.InRange S) (os : List (StatOp (statIntPercent t R S))) (hn : ∀ o ∈ os, ¬ o.IsBase)
    (ss : List StatIntPercent) (hs : os.mapM StatOp.intoStat = .ok ss) (v : StatIntPercent) (out : Int)
    (hv : joinList (statIntPercent t R S) (statIntPercent t R S).default ss = .ok v)
    (he : (statIntPercent t R S).eval v = .ok out) :
    let C := os.map statIntPercent.contrib
    ∃ z : ℤ, Rounds R (((1 + os.length + total C : ℤ) : ℚ) * (1 + (os.map statIntPercent.factor).sum)) z ∧
      out = clampTo z (floorOf t.prim.lo C) (capOf t.prim.hi C) := by
  have hfS : t.fromI64 S = .ok S := by
    rw [C33_small_types_partial t (by omega) hw]
    unfold nearest
    rw [if_neg (not_lt.2 hS.1), if_neg (not_lt.2 hS.2)]

  have key : ∀ (os : List (StatOp (statIntPercent t R S))), (∀ o ∈ os, ¬ o.IsBase) →
      ∀ ss v0 v, v0.mult.WF → t.prim.lo ≤ v0.min → v0.max ≤ t.prim.hi → os.mapM StatOp.intoStat = .ok ss →
        joinList (statIntPercent t R S) v0 ss = .ok v → v.mult.WF ∧
        v.addend = v0.addend + os.length + total (os.map statIntPercent.contrib) ∧
        v.mult.toRat = v0.mult.toRat + (os.map statIntPercent.factor).sum ∧
        v.min = floorOf v0.min (os.map statIntPercent.contrib) ∧
        v.max = capOf v0.max (os.map statIntPercent.contrib) := by
    intro os
    induction os with
    | nil =>
      intro _ ss v0 v hw0 _ _ es e
      cases es; cases e
      simp [total, floorOf, capOf, hw0]
    | cons o os ih =>
      intro hn ss v0 v hw0 hlo hhi es e
      simp only [List.mapM_cons, Res.bind_eq_ok] at es
      obtain ⟨s, h1, ss', h2, es⟩ := es
      cases es
      simp only [joinList, Res.bind_eq_ok, NumTy.add, NumTy.fit_panic h, NumTy.primInt_of_panic h] at e
      obtain ⟨v1, ⟨x, ⟨rfl, -⟩, m1, hm1, e1⟩, e⟩ := e
      cases e1
      have hno := hn o (by simp)
      have wf1 : (Frac.ops t.primInt).one.WF := Frac.wf_int 1
      have tr1 : (Frac.ops t.primInt).one.toRat = 1 := by
        have := Frac.toRat_int 1
        simpa [Frac.ops, Frac.newRaw] using this
      cases o with
      | base b => exact absurd trivial hno
      | or b => exact b.elim
      | not b => exact b.elim
      | add a =>
        simp only [StatOp.intoStat, StatOp.writeTo, Res.bind_eq_ok, NumTy.add, NumTy.fit_panic h] at h1
        obtain ⟨x, ⟨rfl, -⟩, h1⟩ := h1
        cases h1
        obtain ⟨k3, k4⟩ := Frac.add_ok h hw0 wf1 hm1
        obtain ⟨i1, i2, i3, i4, i5⟩ := ih (fun o ho => hn o (by simp [ho])) _ _ v k3
          (by simp only [NumTy.max_eq]; omega) (by simp only [NumTy.min_eq]; omega) h2 e
        simp only [NumTy.max_eq, NumTy.min_eq, NumTy.minValue, NumTy.maxValue, max_eq_left hlo, min_eq_left hhi] at i4 i5
        refine ⟨i1, ?_, ?_, i4, i5⟩
        · rw [i2]; simp only [List.map_cons, statIntPercent.contrib, total, List.length_cons]; push_cast; ring
        · rw [i3, k4, tr1]; simp only [List.map_cons, statIntPercent.factor, List.sum_cons]; ring
      | mul a =>
        simp only [StatOp.intoStat, StatOp.writeTo, Res.bind_eq_ok, NumTy.buildFraction, NumTy.primInt_of_panic h, hfS,
          Except.ok.injEq] at h1
        obtain ⟨_, rfl, f, hf, m, hm, h1⟩ := h1
        subst h1
        obtain ⟨-, k1, k2⟩ := Frac.new_ok h hf
        obtain ⟨q1, q2⟩ := Frac.mul_ok h (Frac.wf_int 1) k1 hm
        obtain ⟨k3, k4⟩ := Frac.add_ok h hw0 q1 hm1
        obtain ⟨i1, i2, i3, i4, i5⟩ := ih (fun o ho => hn o (by simp [ho])) _ _ v k3
          (by simp only [NumTy.max_eq]; omega) (by simp only [NumTy.min_eq]; omega) h2 e
        simp only [NumTy.max_eq, NumTy.min_eq, NumTy.minValue, NumTy.maxValue, max_eq_left hlo, min_eq_left hhi] at i4 i5
        refine ⟨i1, ?_, ?_, i4, i5⟩
        · rw [i2]; simp only [List.map_cons, statIntPercent.contrib, total, List.length_cons]; push_cast; ring
        · rw [i3, k4, q2, Frac.toRat_int, k2]
          simp only [List.map_cons, statIntPercent.factor, List.sum_cons]; push_cast; ring
      | min a =>
        simp only [StatOp.intoStat, StatOp.writeTo] at h1
        cases h1
        obtain ⟨k3, k4⟩ := Frac.add_ok h hw0 wf1 hm1
        obtain ⟨i1, i2, i3, i4, i5⟩ := ih (fun o ho => hn o (by simp [ho])) _ _ v k3
          (by simp only [NumTy.max_eq]; omega) (by simp only [NumTy.min_eq]; omega) h2 e
        simp only [NumTy.max_eq, NumTy.min_eq, NumTy.minValue, NumTy.maxValue, min_eq_left hhi] at i4 i5
        refine ⟨i1, ?_, ?_, ?_, i5⟩
        · rw [i2]; simp only [List.map_cons, statIntPercent.contrib, total, List.length_cons]; push_cast; ring
        · rw [i3, k4, tr1]; simp only [List.map_cons, statIntPercent.factor, List.sum_cons]; ring
        · rw [i4, ← max_assoc, max_eq_left hlo, floorOf_max]; rfl
      | max a =>
        simp only [StatOp.intoStat, StatOp.writeTo] at h1
        cases h1
        obtain ⟨k3, k4⟩ := Frac.add_ok h hw0 wf1 hm1
        obtain ⟨i1, i2, i3, i4, i5⟩ := ih (fun o ho => hn o (by simp [ho])) _ _ v k3
          (by simp only [NumTy.max_eq]; omega) (by simp only [NumTy.min_eq]; omega) h2 e
        simp only [NumTy.max_eq, NumTy.min_eq, NumTy.minValue, NumTy.maxValue, max_eq_left hlo] at i4 i5
        refine ⟨i1, ?_, ?_, i4, ?_⟩
        · rw [i2]; simp only [List.map_cons, statIntPercent.contrib, total, List.length_cons]; push_cast; ring
        · rw [i3, k4, tr1]; simp only [List.map_cons, statIntPercent.factor, List.sum_cons]; ring
        · rw [i5, ← min_assoc, min_eq_left hhi, capOf_min]; rfl
  obtain ⟨i1, i2, i3, i4, i5⟩ := key os hn _ _ v (Frac.wf_int 1) (le_refl _) (le_refl _) hs hv
  simp only [Res.bind_eq_ok, NumTy.primInt_of_panic h, NumTy.fromFraction, NumTy.intoFraction,
    Frac.newRaw] at he
  obtain ⟨x, hx, r, hrr, i, hi, he⟩ := he
  obtain ⟨k1, k2⟩ := Frac.mul_ok h (Frac.wf_int v.addend) i1 hx
  obtain ⟨z, rfl, hz⟩ := Frac.apply_ok h R k1 hrr
  simp only [Frac.toInteger, Res.bind_eq_ok] at hi
  obtain ⟨y, hy, hi⟩ := hi
  rw [Frac.trunc_ok h hy] at hi
  cases hi
  cases he
  refine ⟨z, ?_, ?_⟩
  · rw [k2, Frac.toRat_int] at hz
    simp only [Frac.ops, Frac.newRaw, Frac.toRat_int, Int.cast_one] at i3
    rw [← i3, ← i2]; exact hz
  · simp only [NumTy.minValue, NumTy.maxValue] at i4 i5
    rw [NumTy.max_eq, NumTy.min_eq, ← i4, ← i5, Int.tdiv_one]; rfl

/-- a `+10` and a `150%` modifier: `(1 + 2 + 10) * (1 + 1 + 1.5) = 45.5`, truncated `45` -/
example : let D := statIntPercent ⟨.i32, .prim, .debug⟩ .truncate 100
    (([.add 10, .mul 150] : List (StatOp D)).mapM StatOp.intoStat >>= fun ss =>
      joinList D D.default ss >>= fun v => D.eval v) = .ok 45 := by
  decide

/-! ### any assembly -/

/-- What an assembly of a `StatIntPercent` amounts to: the sum, the factor, and the bounds.  A default counts as `1`
in the sum and in the factor, a base as `1` in the factor; `mul` multiplies the factor, joining adds both sums and
both factors. -/
structure PercentParts where
  sum : ℤ
  factor : ℚ
  lower : ℤ
  upper : ℤ

/-- the parts of an assembly, from the documentation of the fields and operations -/
def percentParts (t : NumTy) (R : Rounding) (S : Int) : Tree (statIntPercent t R S) → PercentParts
  | .dflt => ⟨1, 1, t.prim.lo, t.prim.hi⟩
  | .base b => ⟨b, 1, t.prim.lo, t.prim.hi⟩
  | .op T o =>
    let p := percentParts t R S T
    match o with
    | .add a => { p with sum := p.sum + (show Int from a) }
    | .mul m => { p with factor := p.factor * ((show Int from m : ℤ) / (S : ℚ)) }
    | .min b => { p with lower := max p.lower (show Int from b) }
    | .max b => { p with upper := min p.upper (show Int from b) }
    | .base b => ⟨b, 1, t.prim.lo, t.prim.hi⟩
    | .or x => x.elim
    | .not x => x.elim
  | .join l r =>
    let p := percentParts t R S l
    let q := percentParts t R S r
    ⟨p.sum + q.sum, p.factor + q.factor, max p.lower q.lower, min p.upper q.upper⟩

/-- **C26**, exactly, for every assembly by operations and joins (operations that set a base included): what is
evaluated is the sum times the factor, rounded and clamped, where joining adds the factors. -/
theorem C26_actual (t : NumTy) (h : t.ovf = .panic) (hb : 1 < t.prim.bits)
    (hw : t.prim.bits ≤ 63 ∨ (t.prim.bits = 64 ∧ t.prim.signed = true)) (R : Rounding) (S : Int)
    (hS : t.prim.InRange S) (T : Tree (statIntPercent t R S)) (v : StatIntPercent) (out : Int)
    (hv : T.run = .ok v) (he : (statIntPercent t R S).eval v = .ok out) :
    let p := percentParts t R S T
    ∃ z : ℤ, Rounds R (p.sum * p.factor) z ∧ out = clampTo z p.lower p.upper := by
  have hfS : t.fromI64 S = .ok S := by
    rw [C33_small_types_partial t (by omega) hw]
    unfold nearest
    rw [if_neg (not_lt.2 hS.1), if_neg (not_lt.2 hS.2)]
  have key : ∀ (T : Tree (statIntPercent t R S)) v, T.run = .ok v → v.mult.WF ∧
      v.addend = (percentParts t R S T).sum ∧ v.mult.toRat = (percentParts t R S T).factor ∧
      v.min = (percentParts t R S T).lower ∧ v.max = (percentParts t R S T).upper := by
    have tr1 : (Frac.ops t.primInt).one.toRat = 1 := by
      have := Frac.toRat_int 1
      simpa [Frac.ops, Frac.newRaw] using this
    intro T
    induction T with
    | dflt => intro v hv; cases hv; exact ⟨Frac.wf_int 1, rfl, tr1, rfl, rfl⟩
    | base b => intro v hv; cases hv; exact ⟨Frac.wf_int 1, rfl, tr1, rfl, rfl⟩
    | op T o ih =>
      intro v hv
      simp only [Tree.run, Res.bind_eq_ok] at hv
      obtain ⟨w, hw1, hv⟩ := hv
      obtain ⟨i1, i2, i3, i4, i5⟩ := ih w hw1
      cases o with
      | base b => cases hv; exact ⟨Frac.wf_int 1, rfl, tr1, rfl, rfl⟩
      | or b => exact b.elim
      | not b => exact b.elim
      | add a =>
        simp only [StatOp.writeTo, Res.bind_eq_ok, NumTy.add, NumTy.fit_panic h] at hv
        obtain ⟨x, ⟨rfl, -⟩, hv⟩ := hv
        cases hv
        exact ⟨i1, by simp only [percentParts, i2], i3, i4, i5⟩
      | mul a =>
        simp only [StatOp.writeTo, Res.bind_eq_ok, NumTy.buildFraction, NumTy.primInt_of_panic h, hfS,
          Except.ok.injEq] at hv
        obtain ⟨_, rfl, f, hf, m, hm, hv⟩ := hv
        subst hv
        obtain ⟨-, k1, k2⟩ := Frac.new_ok h hf
        obtain ⟨k3, k4⟩ := Frac.mul_ok h i1 k1 hm
        exact ⟨k3, i2, by simp only [percentParts, k4, i3, k2], i4, i5⟩
      | min a =>
        simp only [StatOp.writeTo] at hv
        cases hv
        exact ⟨i1, i2, i3, by simp only [percentParts, NumTy.max_eq, i4], i5⟩
      | max a =>
        simp only [StatOp.writeTo] at hv
        cases hv
        exact ⟨i1, i2, i3, i4, by simp only [percentParts, NumTy.min_eq, i5]⟩
    | join l r il ir =>
      intro v hv
      simp only [Tree.run, Res.bind_eq_ok] at hv
      obtain ⟨a, ha, b, hb', hv⟩ := hv
      obtain ⟨i1, i2, i3, i4, i5⟩ := il a ha
      obtain ⟨j1, j2, j3, j4, j5⟩ := ir b hb'
      simp only [NumTy.add, NumTy.fit_panic h, NumTy.primInt_of_panic h] at hv
      obtain ⟨x, ⟨rfl, -⟩, m, hm, hv⟩ := hv
      cases hv
      obtain ⟨k3, k4⟩ := Frac.add_ok h i1 j1 hm
      exact ⟨k3, by simp only [percentParts, i2, j2], by simp only [percentParts, k4, i3, j3],
        by simp only [percentParts, NumTy.max_eq, i4, j4], by simp only [percentParts, NumTy.min_eq, i5, j5]⟩
  obtain ⟨i1, i2, i3, i4, i5⟩ := key T v hv
  simp only [Res.bind_eq_ok, NumTy.primInt_of_panic h, NumTy.fromFraction, NumTy.intoFraction,
    Frac.newRaw] at he
  obtain ⟨x, hx, r, hrr, i, hi, he⟩ := he
  obtain ⟨k1, k2⟩ := Frac.mul_ok h (Frac.wf_int v.addend) i1 hx
  obtain ⟨z, rfl, hz⟩ := Frac.apply_ok h R k1 hrr
  simp only [Frac.toInteger, Res.bind_eq_ok] at hi
  obtain ⟨y, hy, hi⟩ := hi
  rw [Frac.trunc_ok h hy] at hi
  cases hi
  cases he
  refine ⟨z, ?_, ?_⟩
  · rw [k2, Frac.toRat_int, i2, i3] at hz
    exact hz
  · rw [NumTy.max_eq, NumTy.min_eq, i4, i5, Int.tdiv_one]; rfl

/-- a base of `10` with `+5` and `150%` (15 · 1.5) is joined with a base of `20` with `50%`, then doubled:
`(15 + 20) * (1.5 + 0.5) * 2 = 140` -/
example : let D := statIntPercent ⟨.i32, .prim, .debug⟩ .truncate 100
    let T : Tree D := .op (.join (.op (.op (.base 10) (.mul 150)) (.add 5)) (.op (.base 20) (.mul 50))) (.mul 200)
    ((T.run >>= fun v => D.eval v) = .ok 140) ∧
    (percentParts ⟨.i32, .prim, .debug⟩ .truncate 100 T).sum = 35 ∧
    (percentParts ⟨.i32, .prim, .debug⟩ .truncate 100 T).factor = 4 := by
  refine ⟨by decide, rfl, ?_⟩
  norm_num [percentParts]

end BSQ
