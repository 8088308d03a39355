import Verif.Proofs.Monotone
import Verif.Props.Fraction
/-!
# C70: bonuses are monotone

Add one operation to an assembly, anywhere and in any order: what does it do to the result?  Overflow-checked
arithmetic, as in `C16`–`C22`; `C71` (Props/MonotoneFloat) treats saturating and floating point arithmetic.
-/
namespace BSQ
open Contrib

section
variable {A M B : Type}

theorem clampTo_mono [LinearOrder B] {x x' lo lo' hi hi' : B} (hx : x ≤ x') (hl : lo ≤ lo') (hh : hi ≤ hi') :
    clampTo x lo hi ≤ clampTo x' lo' hi' :=
  max_le_max (min_le_min hx hh) hl

theorem Contrib.floorOf_le_cons [LinearOrder B] (lo : B) (c : Contrib A M B) (L : List (Contrib A M B)) :
    floorOf lo L ≤ floorOf lo (c :: L) := by
  cases c <;> simp [floorOf]

theorem Contrib.capOf_cons_le [LinearOrder B] (hi : B) (c : Contrib A M B) (L : List (Contrib A M B)) :
    capOf hi (c :: L) ≤ capOf hi L := by
  cases c <;> simp [capOf]

end

/-- C70 for `StatInt`: one more operation anywhere in an assembly, in any order.  A non-negative addend never
lowers the result if the multipliers multiply to a non-negative number; a multiplier of at least one never
lowers a non-negative result; a lower bound never lowers it; an upper bound never raises it. -/
theorem C70_statInt (t : NumTy) (h : t.ovf = .panic) (tr tr' : Tree (statInt t)) (o : StatOp (statInt t))
    (hr : tr.NoReset) (hr' : tr'.NoReset) (hp : tr'.leaves.Perm (o :: tr.leaves))
    (hok : ∀ o ∈ tr'.leaves, t.prim.InRange (statInt.contrib o).num) (v v' : StatInt) (out out' : Int)
    (hv : tr.run = .ok v) (hv' : tr'.run = .ok v')
    (he : (statInt t).eval v = .ok out) (he' : (statInt t).eval v' = .ok out') :
    let C := tr.leaves.map statInt.contrib
    (∀ x : Int, o = .add x → 0 ≤ x → 0 ≤ product C → out ≤ out') ∧
    (∀ m : Int, o = .mul m → 1 ≤ m → 0 ≤ total C * product C → out ≤ out') ∧
    (∀ b : Int, o = .min b → out ≤ out') ∧
    (∀ b : Int, o = .max b → out' ≤ out) := by
  intro C
  have e := C16_closed_form t h tr hr (fun o h => hok o (hp.mem_iff.2 (by simp [h]))) v out hv he
  have e' := C16_closed_form t h tr' hr' hok v' out' hv' he'
  have hp' := hp.map statInt.contrib
  simp only [List.map_cons] at e e' hp'
  rw [total_perm hp', product_perm hp', floorOf_perm _ hp', capOf_perm _ hp'] at e'
  change out = clampTo (total C * product C) _ _ at e
  subst e e'
  refine ⟨?_, ?_, ?_, ?_⟩
  · rintro x rfl hx hc
    refine clampTo_mono ?_ le_rfl le_rfl
    change total C * product C ≤ (x + total C) * product C
    nlinarith [mul_nonneg hx hc]
  · rintro m rfl hm hc
    refine clampTo_mono ?_ le_rfl le_rfl
    change total C * product C ≤ total C * (m * product C)
    nlinarith [mul_nonneg (by omega : 0 ≤ m - 1) hc]
  · rintro b rfl
    exact clampTo_mono le_rfl (floorOf_le_cons _ (.atLeast b) _) le_rfl
  · rintro b rfl
    exact clampTo_mono le_rfl le_rfl (capOf_cons_le _ (.atMost b) _)

/-- C70 for `StatIntFraction`, in each rounding mode -/
theorem C70_statIntFraction (t : NumTy) (h : t.ovf = .panic) (hb : 1 < t.prim.bits) (R : Rounding)
    (tr tr' : Tree (statIntFraction t R)) (o : StatOp (statIntFraction t R))
    (hr : tr.NoReset) (hr' : tr'.NoReset) (hp : tr'.leaves.Perm (o :: tr.leaves))
    (hok : ∀ o ∈ tr'.leaves, statIntFraction.okOp o) (v v' : StatIntFraction) (out out' : Int)
    (hv : tr.run = .ok v) (hv' : tr'.run = .ok v')
    (he : (statIntFraction t R).eval v = .ok out) (he' : (statIntFraction t R).eval v' = .ok out') :
    let C := tr.leaves.map statIntFraction.contrib
    (∀ x : Int, o = .add x → 0 ≤ x → 0 ≤ product C → out ≤ out') ∧
    (∀ m : Frac, o = .mul m → 1 ≤ m.toRat → 0 ≤ (total C : ℤ) * product C → out ≤ out') ∧
    (∀ b : Int, o = .min b → out ≤ out') ∧
    (∀ b : Int, o = .max b → out' ≤ out) := by
  intro C
  obtain ⟨z, hz, e⟩ := C21_closed_form t h hb R tr hr (fun o h => hok o (hp.mem_iff.2 (by simp [h]))) v out hv he
  obtain ⟨z', hz', e'⟩ := C21_closed_form t h hb R tr' hr' hok v' out' hv' he'
  have hp' := hp.map statIntFraction.contrib
  simp only [List.map_cons] at e e' hp'
  rw [floorOf_perm _ hp', capOf_perm _ hp'] at e'
  rw [total_perm hp', product_perm hp'] at hz'
  change Rounds R (((total C : ℤ) : ℚ) * product C) z at hz
  subst e e'
  refine ⟨?_, ?_, ?_, ?_⟩
  · rintro x rfl hx hc
    refine clampTo_mono (Frac.rounds_mono R ?_ hz hz') le_rfl le_rfl
    change ((total C : ℤ) : ℚ) * product C ≤ ((x + total C : ℤ) : ℚ) * product C
    have hx' : (0 : ℚ) ≤ x := by exact_mod_cast hx
    push_cast
    nlinarith [mul_nonneg hx' hc]
  · rintro m rfl hm hc
    refine clampTo_mono (Frac.rounds_mono R ?_ hz hz') le_rfl le_rfl
    change ((total C : ℤ) : ℚ) * product C ≤ ((total C : ℤ) : ℚ) * (m.toRat * product C)
    nlinarith [mul_nonneg (by linarith : 0 ≤ m.toRat - 1) hc]
  · rintro b rfl
    have : z = z' := Frac.rounds_unique R hz hz'
    subst this
    exact clampTo_mono le_rfl (floorOf_le_cons _ (.atLeast b) _) le_rfl
  · rintro b rfl
    have : z = z' := Frac.rounds_unique R hz hz'
    subst this
    exact clampTo_mono le_rfl le_rfl (capOf_cons_le _ (.atMost b) _)

/-- C70 for `StatIntPercentAdditive`, in each rounding mode and for each positive scale: here a positive
percentage raises the result whenever the total is non-negative, even if the percentages sum to less than
`-100%`. -/
theorem C70_statIntPercentAdditive (t : NumTy) (h : t.ovf = .panic) (hb : 1 < t.prim.bits) (R : Rounding) (S : Int)
    (hS : t.prim.InRange S) (hS0 : 0 < S)
    (tr tr' : Tree (statIntPercentAdditive t R S)) (o : StatOp (statIntPercentAdditive t R S))
    (hr : tr.NoReset) (hr' : tr'.NoReset) (hp : tr'.leaves.Perm (o :: tr.leaves))
    (hok : ∀ o ∈ tr'.leaves, statIntPercentAdditive.okOp o) (v v' : StatIntPercentAdditive) (out out' : Int)
    (hv : tr.run = .ok v) (hv' : tr'.run = .ok v')
    (he : (statIntPercentAdditive t R S).eval v = .ok out)
    (he' : (statIntPercentAdditive t R S).eval v' = .ok out') :
    let C := tr.leaves.map statIntPercentAdditive.contrib
    (∀ x : Int, o = .add x → 0 ≤ x → 0 ≤ S + multSum C → out ≤ out') ∧
    (∀ m : Int, o = .mul m → 0 ≤ m → 0 ≤ total C → out ≤ out') ∧
    (∀ b : Int, o = .min b → out ≤ out') ∧
    (∀ b : Int, o = .max b → out' ≤ out) := by
  intro C
  obtain ⟨-, z, hz, e⟩ := C20_closed_form t h hb R S hS tr hr (fun o h => hok o (hp.mem_iff.2 (by simp [h])))
    v out hv he
  obtain ⟨-, z', hz', e'⟩ := C20_closed_form t h hb R S hS tr' hr' hok v' out' hv' he'
  have hp' := hp.map statIntPercentAdditive.contrib
  simp only [List.map_cons] at e e' hp'
  rw [floorOf_perm _ hp', capOf_perm _ hp'] at e'
  rw [total_perm hp', multSum_perm hp'] at hz'
  change Rounds R (((total C : ℤ) : ℚ) * ((S : ℚ) + ((multSum C : ℤ) : ℚ)) / (S : ℚ)) z at hz
  subst e e'
  have hSq : (0 : ℚ) < S := by exact_mod_cast hS0
  refine ⟨?_, ?_, ?_, ?_⟩
  · rintro x rfl hx hc
    refine clampTo_mono (Frac.rounds_mono R ?_ hz hz') le_rfl le_rfl
    refine div_le_div_of_nonneg_right ?_ hSq.le
    change ((total C : ℤ) : ℚ) * ((S : ℚ) + ((multSum C : ℤ) : ℚ)) ≤
      ((x + total C : ℤ) : ℚ) * ((S : ℚ) + ((multSum C : ℤ) : ℚ))
    exact_mod_cast (by nlinarith [mul_nonneg hx hc] : total C * (S + multSum C) ≤ (x + total C) * (S + multSum C))
  · rintro m rfl hm hc
    refine clampTo_mono (Frac.rounds_mono R ?_ hz hz') le_rfl le_rfl
    refine div_le_div_of_nonneg_right ?_ hSq.le
    change ((total C : ℤ) : ℚ) * ((S : ℚ) + ((multSum C : ℤ) : ℚ)) ≤
      ((total C : ℤ) : ℚ) * ((S : ℚ) + ((m + multSum C : ℤ) : ℚ))
    exact_mod_cast (by nlinarith [mul_nonneg hm hc] : total C * (S + multSum C) ≤ total C * (S + (m + multSum C)))
  · rintro b rfl
    have : z = z' := Frac.rounds_unique R hz hz'
    subst this
    exact clampTo_mono le_rfl (floorOf_le_cons _ (.atLeast b) _) le_rfl
  · rintro b rfl
    have : z = z' := Frac.rounds_unique R hz hz'
    subst this
    exact clampTo_mono le_rfl le_rfl (capOf_cons_le _ (.atMost b) _)

/-- C70 for `StatFloat<Fraction>` -/
theorem C70_statFloat_fraction (t : NumTy) (h : t.ovf = .panic) (hb : 1 < t.prim.bits)
    (tr tr' : Tree (statFloat (Frac.ops t))) (o : StatOp (statFloat (Frac.ops t)))
    (hr : tr.NoReset) (hr' : tr'.NoReset) (hp : tr'.leaves.Perm (o :: tr.leaves))
    (hok : ∀ o ∈ tr'.leaves, statFloat.okOp o) (v v' : StatFloat Frac) (out out' : Frac)
    (hv : tr.run = .ok v) (hv' : tr'.run = .ok v')
    (he : (statFloat (Frac.ops t)).eval v = .ok out) (he' : (statFloat (Frac.ops t)).eval v' = .ok out') :
    let C := tr.leaves.map statFloat.fracContrib
    (∀ x : Frac, o = .add x → 0 ≤ x.toRat → 0 ≤ product C → out.toRat ≤ out'.toRat) ∧
    (∀ m : Frac, o = .mul m → 1 ≤ m.toRat → 0 ≤ total C * product C → out.toRat ≤ out'.toRat) ∧
    (∀ b : Frac, o = .min b → out.toRat ≤ out'.toRat) ∧
    (∀ b : Frac, o = .max b → out'.toRat ≤ out.toRat) := by
  intro C
  have e := C22_closed_form_float t h hb tr hr (fun o h => hok o (hp.mem_iff.2 (by simp [h]))) v out hv he
  have e' := C22_closed_form_float t h hb tr' hr' hok v' out' hv' he'
  have hp' := hp.map statFloat.fracContrib
  simp only [List.map_cons] at e e' hp'
  rw [total_perm hp', product_perm hp', floorOf_perm _ hp', capOf_perm _ hp'] at e'
  change out.toRat = clampTo (total C * product C) _ _ at e
  rw [e, e']
  refine ⟨?_, ?_, ?_, ?_⟩
  · rintro x rfl hx hc
    refine clampTo_mono ?_ le_rfl le_rfl
    change total C * product C ≤ (x.toRat + total C) * product C
    nlinarith [mul_nonneg hx hc]
  · rintro m rfl hm hc
    refine clampTo_mono ?_ le_rfl le_rfl
    change total C * product C ≤ total C * (m.toRat * product C)
    nlinarith [mul_nonneg (by linarith : 0 ≤ m.toRat - 1) hc]
  · rintro b rfl
    exact clampTo_mono le_rfl (floorOf_le_cons _ (.atLeast b.toRat) _) le_rfl
  · rintro b rfl
    exact clampTo_mono le_rfl le_rfl (capOf_cons_le _ (.atMost b.toRat) _)

/-- C70 for `StatFloatAdditive<Fraction>` -/
theorem C70_statFloatAdditive_fraction (t : NumTy) (h : t.ovf = .panic) (hb : 1 < t.prim.bits)
    (tr tr' : Tree (statFloatAdditive (Frac.ops t))) (o : StatOp (statFloatAdditive (Frac.ops t)))
    (hr : tr.NoReset) (hr' : tr'.NoReset) (hp : tr'.leaves.Perm (o :: tr.leaves))
    (hok : ∀ o ∈ tr'.leaves, statFloatAdditive.okOp o) (v v' : StatFloatAdditive Frac) (out out' : Frac)
    (hv : tr.run = .ok v) (hv' : tr'.run = .ok v')
    (he : (statFloatAdditive (Frac.ops t)).eval v = .ok out)
    (he' : (statFloatAdditive (Frac.ops t)).eval v' = .ok out') :
    let C := tr.leaves.map statFloatAdditive.fracContrib
    (∀ x : Frac, o = .add x → 0 ≤ x.toRat → 0 ≤ 1 + multSum C → out.toRat ≤ out'.toRat) ∧
    (∀ m : Frac, o = .mul m → 0 ≤ m.toRat → 0 ≤ total C → out.toRat ≤ out'.toRat) ∧
    (∀ b : Frac, o = .min b → out.toRat ≤ out'.toRat) ∧
    (∀ b : Frac, o = .max b → out'.toRat ≤ out.toRat) := by
  intro C
  have e := C22_closed_form_additive t h hb tr hr (fun o h => hok o (hp.mem_iff.2 (by simp [h]))) v out hv he
  have e' := C22_closed_form_additive t h hb tr' hr' hok v' out' hv' he'
  have hp' := hp.map statFloatAdditive.fracContrib
  simp only [List.map_cons] at e e' hp'
  rw [total_perm hp', multSum_perm hp', floorOf_perm _ hp', capOf_perm _ hp'] at e'
  change out.toRat = clampTo (total C * (1 + multSum C)) _ _ at e
  rw [e, e']
  refine ⟨?_, ?_, ?_, ?_⟩
  · rintro x rfl hx hc
    refine clampTo_mono ?_ le_rfl le_rfl
    change total C * (1 + multSum C) ≤ (x.toRat + total C) * (1 + multSum C)
    nlinarith [mul_nonneg hx hc]
  · rintro m rfl hm hc
    refine clampTo_mono ?_ le_rfl le_rfl
    change total C * (1 + multSum C) ≤ total C * (1 + (m.toRat + multSum C))
    nlinarith [mul_nonneg hm hc]
  · rintro b rfl
    exact clampTo_mono le_rfl (floorOf_le_cons _ (.atLeast b.toRat) _) le_rfl
  · rintro b rfl
    exact clampTo_mono le_rfl le_rfl (capOf_cons_le _ (.atMost b.toRat) _)

/-- C70 for `StatMult<Fraction>`, which has multipliers and bounds only -/
theorem C70_statMult_fraction (t : NumTy) (h : t.ovf = .panic) (hb : 1 < t.prim.bits)
    (tr tr' : Tree (statMult (Frac.ops t))) (o : StatOp (statMult (Frac.ops t)))
    (hr : tr.NoReset) (hr' : tr'.NoReset) (hp : tr'.leaves.Perm (o :: tr.leaves))
    (hok : ∀ o ∈ tr'.leaves, statMult.okOp o) (v v' : StatMult Frac) (out out' : Frac)
    (hv : tr.run = .ok v) (hv' : tr'.run = .ok v')
    (he : (statMult (Frac.ops t)).eval v = .ok out) (he' : (statMult (Frac.ops t)).eval v' = .ok out') :
    let C := tr.leaves.map statMult.fracContrib
    (∀ m : Frac, o = .mul m → 1 ≤ m.toRat → 0 ≤ product C → out.toRat ≤ out'.toRat) ∧
    (∀ b : Frac, o = .min b → out.toRat ≤ out'.toRat) ∧
    (∀ b : Frac, o = .max b → out'.toRat ≤ out.toRat) := by
  intro C
  have e := C22_closed_form_mult t h hb tr hr (fun o h => hok o (hp.mem_iff.2 (by simp [h]))) v out hv he
  have e' := C22_closed_form_mult t h hb tr' hr' hok v' out' hv' he'
  have hp' := hp.map statMult.fracContrib
  simp only [List.map_cons] at e e' hp'
  rw [product_perm hp', floorOf_perm _ hp', capOf_perm _ hp'] at e'
  change out.toRat = clampTo (product C) _ _ at e
  rw [e, e']
  refine ⟨?_, ?_, ?_⟩
  · rintro m rfl hm hc
    refine clampTo_mono ?_ le_rfl le_rfl
    change product C ≤ m.toRat * product C
    nlinarith [mul_nonneg (by linarith : 0 ≤ m.toRat - 1) hc]
  · rintro b rfl
    exact clampTo_mono le_rfl (floorOf_le_cons _ (.atLeast b.toRat) _) le_rfl
  · rintro b rfl
    exact clampTo_mono le_rfl le_rfl (capOf_cons_le _ (.atMost b.toRat) _)

/-- C70 fails where arithmetic wraps: in a release build (or over `Wrapping<i32>`) `Add(1)` takes a stat at
`i32::MAX` to `i32::MIN`. -/
theorem C70_wrapping_lowers (k : Kind) (hk : k ≠ .saturating) :
    let D := statInt ⟨.i32, k, .release⟩
    let tr : Tree D := .base (2147483647 : Int)
    let tr' : Tree D := .op tr (.add (1 : Int))
    (tr.run >>= fun v => D.eval v) = .ok (2147483647 : Int) ∧
      (tr'.run >>= fun v => D.eval v) = .ok (-2147483648 : Int) := by
  cases k with
  | prim => exact ⟨rfl, rfl⟩
  | wrapping => exact ⟨rfl, rfl⟩
  | saturating => exact absurd rfl hk

/-- the sign condition is needed: under a negative multiplier a positive addend lowers the result -/
theorem C70_negative_multiplier_lowers :
    let D := statInt ⟨.i32, .prim, .debug⟩
    let tr : Tree D := .op (.base (10 : Int)) (.mul (-2 : Int))
    let tr' : Tree D := .op tr (.add (1 : Int))
    (tr.run >>= fun v => D.eval v) = .ok (-20 : Int) ∧ (tr'.run >>= fun v => D.eval v) = .ok (-22 : Int) :=
  ⟨rfl, rfl⟩

/-- the hypotheses of `C70_statInt` are met: `(10 + 5) * 2`, then the same with an `Add(7)` slipped in first -/
example :
    let D := statInt ⟨.i32, .prim, .debug⟩
    let tr : Tree D := .op (.op (.base (10 : Int)) (.mul (2 : Int))) (.add (5 : Int))
    let tr' : Tree D := .join (.op .dflt (.add (7 : Int))) tr
    tr.NoReset ∧ tr'.NoReset ∧ tr'.leaves.Perm (.add (7 : Int) :: tr.leaves) ∧
      (∀ o ∈ tr'.leaves, IntTy.i32.InRange (statInt.contrib o).num) ∧
      0 ≤ product (tr.leaves.map statInt.contrib) ∧
      (tr.run >>= fun v => D.eval v) = .ok (30 : Int) ∧ (tr'.run >>= fun v => D.eval v) = .ok (44 : Int) := by
  refine ⟨⟨⟨trivial, id⟩, id⟩, ⟨⟨trivial, id⟩, ⟨⟨trivial, id⟩, id⟩⟩, List.Perm.refl _, ?_, by decide, rfl, rfl⟩
  intro o ho
  have ho' : o = .add (7 : Int) ∨ o = .base (10 : Int) ∨ o = .mul (2 : Int) ∨ o = .add (5 : Int) := by
    simpa [Tree.leaves] using ho
  rcases ho' with rfl | rfl | rfl | rfl <;> exact ⟨by decide, by decide⟩

/-- and for the fraction and percentage stats: 10 at 3/2 and at +50%, with and without `Add(7)` -/
example :
    let D := statIntFraction ⟨.i32, .prim, .debug⟩ .floor
    let tr : Tree D := .op (.base (10 : Int)) (.mul (⟨3, 2⟩ : Frac))
    let tr' : Tree D := .op tr (.add (7 : Int))
    0 ≤ product (tr.leaves.map statIntFraction.contrib) ∧
      (tr.run >>= fun v => D.eval v) = .ok (15 : Int) ∧ (tr'.run >>= fun v => D.eval v) = .ok (25 : Int) := by
  refine ⟨?_, by decide +kernel, by decide +kernel⟩
  simp [Tree.leaves, statIntFraction.contrib, product, Frac.toRat]
  norm_num
example :
    let D := statIntPercentAdditive ⟨.i32, .prim, .debug⟩ .floor 100
    let tr : Tree D := .op (.base (10 : Int)) (.mul (50 : Int))
    let tr' : Tree D := .op tr (.add (7 : Int))
    0 ≤ 100 + multSum (tr.leaves.map statIntPercentAdditive.contrib) ∧
      (tr.run >>= fun v => D.eval v) = .ok (15 : Int) ∧ (tr'.run >>= fun v => D.eval v) = .ok (25 : Int) := by
  exact ⟨by decide, by decide +kernel, by decide +kernel⟩
example :
    let D := statFloatAdditive (Frac.ops ⟨.i32, .prim, .debug⟩)
    let tr : Tree D := .op (.base (⟨10, 1⟩ : Frac)) (.mul (⟨1, 2⟩ : Frac))
    let tr' : Tree D := .op tr (.mul (⟨1, 3⟩ : Frac))
    (tr.run >>= fun v => D.eval v) = .ok (⟨15, 1⟩ : Frac) ∧
      (tr'.run >>= fun v => D.eval v) = .ok (⟨55, 3⟩ : Frac) :=
  ⟨by decide +kernel, by decide +kernel⟩

end BSQ
