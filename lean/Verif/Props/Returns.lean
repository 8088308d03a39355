import Verif.Props.Fraction
import Verif.Props.Misc
import Verif.Props.FloatMul
import Verif.Props.FloatPoint
import Verif.Proofs.Returns
import Mathlib.Algebra.BigOperators.Group.Finset.Defs
/-!
# When the numeric stats over fractions do not panic (C20, C21, C22, C31)

The closed forms of C20, C21 and C22 speak about calculations that return.  Here: if the numbers met when
multiplying everything out by hand are representable, every order of assembly returns and evaluates to the
closed form.
-/
namespace BSQ
open Contrib

/-- C31: when rounding a fraction in lowest terms returns, exactly: rounding down must be able to subtract the
denominator from a negative numerator, rounding up to add it to another one, and the other modes always return. -/
theorem C31_returns_iff (t : NumTy) (h : t.ovf = .panic) (hb : 1 < t.prim.bits) (R : Rounding) (a : Frac)
    (ha : a.Valid t) :
    (∃ z : ℤ, R.apply (Frac.ops t) a = .ok ⟨z, 1⟩ ∧ Rounds R a.toRat z) ↔
      (R = .floor → a.num < 0 → t.prim.lo ≤ a.num - a.den) ∧
      (R = .ceil → 0 ≤ a.num → a.num + a.den ≤ t.prim.hi) := by
  refine ⟨fun ⟨z, e, _⟩ => Frac.reach_of_returns h R ha e, fun hroom => ?_⟩
  obtain ⟨r, hr⟩ := Frac.apply_returns h hb R ha hroom
  obtain ⟨z, rfl, hz⟩ := Frac.apply_ok h R ha.1 hr
  exact ⟨z, hr, hz⟩

/-- C31: in particular when numerator and denominator together leave room in the type -/
theorem C31_returns (t : NumTy) (h : t.ovf = .panic) (hb : 1 < t.prim.bits) (R : Rounding) (a : Frac)
    (ha : a.Valid t) (hroom : |a.num| + a.den ≤ t.prim.hi) :
    ∃ z : ℤ, R.apply (Frac.ops t) a = .ok ⟨z, 1⟩ ∧ Rounds R a.toRat z :=
  (C31_returns_iff t h hb R a ha).2 (Frac.reach_of_room R ha hroom)

/-- C31: without room rounding up panics, though the result is representable -/
theorem C31_no_room_panics :
    Rounding.apply .ceil (Frac.ops ⟨.i32, .prim, .debug⟩) ⟨2147483647, 2⟩ = .error .panic ∧
    Rounds .ceil (⟨2147483647, 2⟩ : Frac).toRat 1073741824 ∧
    (⟨2147483647, 2⟩ : Frac).Valid ⟨.i32, .prim, .debug⟩ := by
  refine ⟨by decide, ?_, ⟨by decide, by decide⟩, by decide, by decide⟩
  simp only [Rounds, Frac.toRat]; norm_num

example : (⟨-7, 2⟩ : Frac).Valid ⟨.i32, .prim, .debug⟩ ∧
    |(-7 : ℤ)| + 2 ≤ (⟨.i32, .prim, .debug⟩ : NumTy).prim.hi :=
  ⟨⟨⟨by decide, by decide⟩, by decide, by decide⟩, by decide⟩

/-! ## C21 -/

/-- C21: if the magnitudes of the operands multiply out within the type, every order of assembly returns, and
evaluates to the exact product, rounded and clamped. -/
theorem C21_no_overflow (t : NumTy) (h : t.ovf = .panic) (hb : 1 < t.prim.bits) (R : Rounding)
    (tr : Tree (statIntFraction t R)) (hr : tr.NoReset) (hok : ∀ o ∈ tr.leaves, statIntFraction.okOp o) :
    let C := tr.leaves.map statIntFraction.contrib
    absSum (addends C) ≤ t.prim.hi → numSize (mults C) ≤ t.prim.hi →
    numSize (mults C) * absSum (addends C) + denSize (mults C) ≤ t.prim.hi →
    ∃ v z, tr.run = .ok v ∧ Rounds R (((total C : ℤ) : ℚ) * product C) z ∧
      (statIntFraction t R).eval v = .ok (clampTo z (floorOf t.prim.lo C) (capOf t.prim.hi C)) := by
  intro C hT hN hTN
  have hD : denSize (mults C) ≤ t.prim.hi := by
    have := numSize_pos (mults C)
    have := absSum_nonneg (addends C)
    nlinarith
  let N := statIntFraction.model h hb R
  obtain ⟨v, hv⟩ : ∃ v, tr.run = .ok v := by
    refine N.returns (fun L => absSum (addends L) ≤ t.prim.hi ∧ numSize (mults L) ≤ t.prim.hi ∧
      denSize (mults L) ≤ t.prim.hi) ?_ ?_ ?_ tr hr hok ⟨hT, hN, hD⟩
    · rintro L K ⟨h1, h2, h3⟩
      rw [addends_append, absSum_append] at h1
      rw [mults_append] at h2 h3
      rw [numSize_append] at h2
      rw [denSize_append] at h3
      have := absSum_nonneg (addends L); have := absSum_nonneg (addends K)
      have := numSize_pos (mults L); have := numSize_pos (mults K)
      have := denSize_pos (mults L); have := denSize_pos (mults K)
      exact ⟨⟨by omega, by nlinarith, by nlinarith⟩, by omega, by nlinarith, by nlinarith⟩
    · rintro v L o hnb hok hrep ⟨h1, h2, h3⟩
      rw [addends_append, absSum_append] at h1
      rw [mults_append] at h2 h3
      rw [numSize_append] at h2
      rw [denSize_append] at h3
      cases o with
      | base b => exact absurd trivial hnb
      | or b => exact b.elim
      | not b => exact b.elim
      | min b => exact ⟨_, rfl⟩
      | max b => exact ⟨_, rfl⟩
      | add a =>
        have e : v.addend = (addends L).sum := hrep.addend.trans (total_eq L)
        have hin : t.prim.InRange (v.addend + a) := by
          refine IntTy.inRange_of_abs ((abs_add_le _ _).trans ?_) fun hs => ?_
          · have k1 := abs_sum_le (addends L)
            rw [← e] at k1
            have k2 : absSum (addends [N.contrib (.add a)]) = |a| := by
              show absSum [a] = |a|
              simp [absSum]
            rw [k2] at h1
            omega
          · have k1 := hrep.ok.addend.1
            have k2 : t.prim.lo ≤ a := (show t.prim.InRange a from hok).1
            rw [IntTy.lo_of_unsigned hs] at k1 k2
            omega
        simp only [StatOp.writeTo, NumTy.add, NumTy.fit_inRange hin]
        exact ⟨_, rfl⟩
      | mul a =>
        have hav : a.Valid t := hok
        obtain ⟨k1, k2⟩ := Frac.prod_parts hrep.ok.mult.1 (hrep.mult.trans (product_eq L))
        obtain ⟨k3, k4⟩ := Frac.prod_parts hav.1 (l := [a.toRat]) (by simp)
        obtain ⟨r, hr⟩ := Frac.mul_returns' hrep.ok.mult hav
          (le_trans (mul_le_mul k1 k3 (abs_nonneg _) (by have := numSize_pos (mults L); omega)) h2)
          (le_trans (mul_le_mul k2 k4 hav.1.pos.le (by have := denSize_pos (mults L); omega)) h3)
        simp only [StatOp.writeTo, NumTy.primInt_of_panic h, hr]
        exact ⟨_, rfl⟩
    · rintro a b L K ra rb ⟨h1, h2, h3⟩
      rw [addends_append, absSum_append] at h1
      rw [mults_append] at h2 h3
      rw [numSize_append] at h2
      rw [denSize_append] at h3
      have e1 : a.addend = (addends L).sum := ra.addend.trans (total_eq L)
      have e2 : b.addend = (addends K).sum := rb.addend.trans (total_eq K)
      have hin : t.prim.InRange (a.addend + b.addend) := by
        refine IntTy.inRange_of_abs ((abs_add_le _ _).trans ?_) fun hs => ?_
        · have k1 := abs_sum_le (addends L)
          have k2 := abs_sum_le (addends K)
          rw [← e1] at k1
          rw [← e2] at k2
          omega
        · have k1 := ra.ok.addend.1
          have k2 := rb.ok.addend.1
          rw [IntTy.lo_of_unsigned hs] at k1 k2
          omega
      obtain ⟨k1, k2⟩ := Frac.prod_parts ra.ok.mult.1 (ra.mult.trans (product_eq L))
      obtain ⟨k3, k4⟩ := Frac.prod_parts rb.ok.mult.1 (rb.mult.trans (product_eq K))
      obtain ⟨r, hr⟩ := Frac.mul_returns' ra.ok.mult rb.ok.mult
        (le_trans (mul_le_mul k1 k3 (abs_nonneg _) (by have := numSize_pos (mults L); omega)) h2)
        (le_trans (mul_le_mul k2 k4 rb.ok.mult.1.pos.le (by have := denSize_pos (mults L); omega)) h3)
      simp only [NumTy.primInt_of_panic h, hr, NumTy.add, NumTy.fit_inRange hin, Res.bind_ok]
      exact ⟨_, rfl⟩
  have rep := N.rep tr v hr hok hv
  have e1 : v.addend = (addends C).sum := rep.addend.trans (total_eq C)
  obtain ⟨k1, k2⟩ := Frac.prod_parts rep.ok.mult.1 (rep.mult.trans (product_eq C))
  have k3 := abs_sum_le (addends C)
  rw [← e1] at k3
  have p1 := rep.ok.mult.1.pos
  have hva := Frac.valid_int hb rep.ok.addend
  have hmul : |v.mult.num| * |v.addend| ≤ numSize (mults C) * absSum (addends C) :=
    mul_le_mul k1 k3 (abs_nonneg _) (by have := numSize_pos (mults C); omega)
  have hdp := denSize_pos (mults C)
  obtain ⟨x, hx⟩ := Frac.mul_returns' rep.ok.mult hva (by simp only; omega) (by simp only; omega)
  obtain ⟨hxv, hxe⟩ := Frac.mul_valid h hb rep.ok.mult hva hx
  obtain ⟨l1, l2⟩ := Frac.parts_le hxv.1 (n := v.mult.num * v.addend) (d := v.mult.den) p1 (by
    rw [hxe, Frac.toRat_int]; simp only [Frac.toRat]; push_cast; ring)
  rw [abs_mul] at l1
  obtain ⟨z, hz, hzr⟩ := C31_returns t h hb R x hxv (by omega)
  have hi := Frac.toInteger_returns hb (Frac.apply_fits hb R hxv.2 hz).1
  refine ⟨v, z, hv, ?_, ?_⟩
  · rw [hxe, Frac.toRat_int, _root_.mul_comm, e1, ← total_eq] at hzr
    have : v.mult.toRat = product C := rep.mult
    rwa [this] at hzr
  · have a3 : v.min = floorOf t.prim.lo C := rep.lo
    have a4 : v.max = capOf t.prim.hi C := rep.hi
    simp only [NumTy.primInt_of_panic h, NumTy.intoFraction, Frac.newRaw, hx, Res.bind_ok, hz, NumTy.fromFraction, hi,
      NumTy.max_eq, NumTy.min_eq, a3, a4]
    rfl

/-- `(10 + 5) * 3/2 * 1/2` meets the conditions -/
example : let C : List (Contrib ℤ ℚ ℤ) := [.add 10, .mul (3 / 2), .mul (1 / 2), .add 5]
    absSum (addends C) ≤ IntTy.i32.hi ∧ numSize (mults C) ≤ IntTy.i32.hi ∧
    numSize (mults C) * absSum (addends C) + denSize (mults C) ≤ IntTy.i32.hi := by
  simp only [addends, mults, absSum, numSize, denSize]
  refine ⟨by decide, by decide +kernel, by decide +kernel⟩

/-! ## C20 -/

/-- C20: if the magnitudes of the operands multiply out within the type, every order of assembly returns, and
evaluates to the exact product, rounded and clamped. -/
theorem C20_no_overflow (t : NumTy) (h : t.ovf = .panic) (hb : 1 < t.prim.bits)
    (hw : t.prim.bits ≤ 63 ∨ (t.prim.bits = 64 ∧ t.prim.signed = true)) (R : Rounding) (S : Int)
    (hS : t.prim.InRange S) (hS0 : S ≠ 0)
    (tr : Tree (statIntPercentAdditive t R S)) (hr : tr.NoReset)
    (hok : ∀ o ∈ tr.leaves, statIntPercentAdditive.okOp o) :
    let C := tr.leaves.map statIntPercentAdditive.contrib
    absSum (addends C) ≤ t.prim.hi → |S| + absSum (mults C) ≤ t.prim.hi →
    absSum (addends C) * (|S| + absSum (mults C)) + |S| ≤ t.prim.hi →
    ∃ v z, tr.run = .ok v ∧ Rounds R (((total C : ℤ) : ℚ) * ((S : ℚ) + ((multSum C : ℤ) : ℚ)) / (S : ℚ)) z ∧
      (statIntPercentAdditive t R S).eval v = .ok (clampTo z (floorOf t.prim.lo C) (capOf t.prim.hi C)) := by
  intro C hT hM hTM
  let N := statIntPercentAdditive.model h hb R S
  have hC : tr.leaves.map N.contrib = C.map asMul := by rw [List.map_map]; rfl
  obtain ⟨v, hv⟩ : ∃ v, tr.run = .ok v := by
    refine N.returns (fun L => absSum (addends L) ≤ t.prim.hi ∧
      absSum ((mults L).map Multiplicative.toAdd) ≤ t.prim.hi) ?_ ?_ ?_ tr hr hok ⟨?_, ?_⟩
    · rintro L K ⟨h1, h2⟩
      rw [addends_append, absSum_append] at h1
      rw [mults_append, List.map_append, absSum_append] at h2
      have := absSum_nonneg (addends L); have := absSum_nonneg (addends K)
      have := absSum_nonneg ((mults L).map Multiplicative.toAdd)
      have := absSum_nonneg ((mults K).map Multiplicative.toAdd)
      exact ⟨⟨by omega, by omega⟩, by omega, by omega⟩
    · rintro v L o hnb hok hrep ⟨h1, h2⟩
      rw [addends_append, absSum_append] at h1
      rw [mults_append, List.map_append, absSum_append] at h2
      have e1 : v.addend = (addends L).sum := hrep.addend.trans (total_eq L)
      have e2 : v.mult = ((mults L).map Multiplicative.toAdd).sum := by
        have := hrep.mult.trans (product_eq L)
        rw [← toAdd_list_sum, ← this]; rfl
      cases o with
      | base b => exact absurd trivial hnb
      | or b => exact b.elim
      | not b => exact b.elim
      | min b => exact ⟨_, rfl⟩
      | max b => exact ⟨_, rfl⟩
      | add a =>
        simp only [StatOp.writeTo, NumTy.add, NumTy.fit_inRange
          (IntTy.inRange_sum (b := a) (K := [a]) hrep.ok.addend hok e1 (by simp) h1)]
        exact ⟨_, rfl⟩
      | mul a =>
        simp only [StatOp.writeTo, NumTy.add, NumTy.fit_inRange
          (IntTy.inRange_sum (b := a) (K := [a]) hrep.ok.mult hok e2 (by simp) h2)]
        exact ⟨_, rfl⟩
    · rintro a b L K ra rb ⟨h1, h2⟩
      rw [addends_append, absSum_append] at h1
      rw [mults_append, List.map_append, absSum_append] at h2
      have e1 : a.addend = (addends L).sum := ra.addend.trans (total_eq L)
      have e2 : b.addend = (addends K).sum := rb.addend.trans (total_eq K)
      have e3 : a.mult = ((mults L).map Multiplicative.toAdd).sum := by
        have := ra.mult.trans (product_eq L)
        rw [← toAdd_list_sum, ← this]; rfl
      have e4 : b.mult = ((mults K).map Multiplicative.toAdd).sum := by
        have := rb.mult.trans (product_eq K)
        rw [← toAdd_list_sum, ← this]; rfl
      simp only [NumTy.add, NumTy.fit_inRange (IntTy.inRange_sum ra.ok.addend rb.ok.addend e1 e2 h1),
        NumTy.fit_inRange (IntTy.inRange_sum ra.ok.mult rb.ok.mult e3 e4 h2), Res.bind_ok]
      exact ⟨_, rfl⟩
    · rw [hC, addends_asMul]; exact hT
    · rw [hC, mults_asMul]; have := abs_nonneg S; omega
  have rep := N.rep tr v hr hok hv
  rw [hC] at rep
  have e1 : v.addend = (addends C).sum := by
    have := rep.addend.trans (total_eq _)
    rwa [addends_asMul] at this
  have e2 : v.mult = (mults C).sum := by
    have := rep.mult.trans (product_eq _)
    rw [← mults_asMul, ← toAdd_list_sum, ← this]; rfl
  have a3 : v.min = floorOf t.prim.lo C := rep.lo.trans (floorOf_asMul ..)
  have a4 : v.max = capOf t.prim.hi C := rep.hi.trans (capOf_asMul ..)
  have hfS : t.fromI64 S = .ok S := by
    rw [C33_small_types_partial t (by omega) hw]
    unfold nearest
    rw [if_neg (not_lt.2 hS.1), if_neg (not_lt.2 hS.2)]
  have hm : t.prim.InRange (v.mult + S) :=
    IntTy.inRange_sum (K := [S]) rep.ok.mult hS e2 (by simp) (by rw [absSum_cons]; simp [absSum] at *; omega)
  have b1 : |v.addend| ≤ absSum (addends C) := by rw [e1]; exact abs_sum_le _
  have b2 : |v.mult + S| ≤ |S| + absSum (mults C) := by
    have := abs_sum_le (mults C)
    rw [← e2] at this
    exact (abs_add_le _ _).trans (by omega)
  have b3 : |v.addend * (v.mult + S)| ≤ absSum (addends C) * (|S| + absSum (mults C)) := by
    rw [abs_mul]; exact mul_le_mul b1 b2 (abs_nonneg _) (absSum_nonneg _)
  have pS := abs_nonneg S
  have hn : Frac.Small t (v.addend * (v.mult + S)) := Frac.small_of_abs (by omega) fun hs => by
    have k1 := rep.ok.addend.1
    have k2 := hm.1
    rw [IntTy.lo_of_unsigned hs] at k1 k2
    exact mul_nonneg k1 k2
  have hsS : Frac.Small t S := Frac.small_of_abs (by have := abs_nonneg (v.addend * (v.mult + S)); omega) fun hs => by
    have k2 := hS.1
    rwa [IntTy.lo_of_unsigned hs] at k2
  obtain ⟨f, hf⟩ := Frac.reduce_returns hS0 hn hsS
  obtain ⟨-, hfw, hfe⟩ := Frac.new_ok h hf
  have hfv : f.Valid t := ⟨hfw, Frac.new_fits hb hf⟩
  have hparts : |f.num| ≤ |v.addend * (v.mult + S)| ∧ f.den ≤ |S| := by
    have := Frac.parts_le hfw (n := if 0 < S then v.addend * (v.mult + S) else -(v.addend * (v.mult + S)))
      (d := |S|) (abs_pos.2 hS0) (by
        rw [hfe]
        split
        · rw [abs_of_pos ‹_›]
        · rw [abs_of_neg (by omega)]; push_cast; rw [neg_div_neg_eq])
    split at this
    · exact this
    · rwa [abs_neg] at this
  obtain ⟨z, hz, hzr⟩ := C31_returns t h hb R f hfv (by omega)
  have hi := Frac.toInteger_returns hb (Frac.apply_fits hb R hfv.2 hz).1
  refine ⟨v, z, hv, ?_, ?_⟩
  · rw [hfe] at hzr
    rw [total_eq, multSum_eq, ← e1, ← e2]
    have : ((v.addend * (v.mult + S) : ℤ) : ℚ) / S = (v.addend : ℚ) * (S + v.mult) / S := by
      push_cast; ring
    rw [← this]; exact hzr
  · simp only [hfS, Res.bind_ok, NumTy.add, NumTy.fit_inRange hm, NumTy.mul, NumTy.fit_inRange hn.1,
      NumTy.buildFraction, Frac.new, NumTy.primInt_of_panic h, hf, hz, NumTy.fromFraction, hi, NumTy.max_eq,
      NumTy.min_eq, a3, a4]
    rfl

/-- `30 * (100 + 15 + 10) / 100` meets the conditions -/
example : let C : List (Contrib ℤ ℤ ℤ) := [.add 30, .mul 15, .mul 10]
    absSum (addends C) ≤ IntTy.i32.hi ∧ |(100 : ℤ)| + absSum (mults C) ≤ IntTy.i32.hi ∧
    absSum (addends C) * (|(100 : ℤ)| + absSum (mults C)) + |(100 : ℤ)| ≤ IntTy.i32.hi := by
  simp only [addends, mults, absSum]
  refine ⟨by decide, by decide, by decide⟩

/-! ## C22 -/

/-- C22: `StatFloat<Fraction>` returns the closed form in every order of assembly when the numbers fit. -/
theorem C22_no_overflow_float (t : NumTy) (h : t.ovf = .panic) (hb : 1 < t.prim.bits)
    (tr : Tree (statFloat (Frac.ops t))) (hr : tr.NoReset) (hok : ∀ o ∈ tr.leaves, statFloat.okOp o) :
    let C := tr.leaves.map statFloat.fracContrib
    SumFits t (addends C) → ProdFits t (mults C) →
    absSum (addends C) * denSize (addends C) * numSize (mults C) ≤ t.prim.hi →
    denSize (addends C) * denSize (mults C) ≤ t.prim.hi →
    ∃ v out, tr.run = .ok v ∧ (statFloat (Frac.ops t)).eval v = .ok out ∧
      out.toRat = clampTo (total C * product C) (floorOf (t.prim.lo : ℚ) C) (capOf (t.prim.hi : ℚ) C) := by
  intro C hA hM hn hd
  let N := statFloat.fracModel h hb
  obtain ⟨v, hv⟩ : ∃ v, tr.run = .ok v := by
    refine N.returns (fun L => SumFits t (addends L) ∧ ProdFits t (mults L)) ?_ ?_ ?_ tr hr hok ⟨hA, hM⟩
    · rintro L K ⟨h1, h2⟩
      rw [addends_append] at h1
      rw [mults_append] at h2
      exact ⟨⟨h1.of_append.1, h2.of_append.1⟩, h1.of_append.2, h2.of_append.2⟩
    · rintro v L o hnb hok hrep ⟨h1, h2⟩
      rw [addends_append] at h1
      rw [mults_append] at h2
      cases o with
      | base b => exact absurd trivial hnb
      | or b => exact b.elim
      | not b => exact b.elim
      | min b => exact ⟨_, rfl⟩
      | max b => exact ⟨_, rfl⟩
      | add a =>
        obtain ⟨r, hr⟩ := Frac.add_of_sum (b := a) (k := [a.toRat]) hrep.ok.addend hok
          (hrep.addend.trans (total_eq L)) (by simp) h1
        simp only [StatOp.writeTo, Frac.ops, hr]
        exact ⟨_, rfl⟩
      | mul a =>
        obtain ⟨r, hr⟩ := Frac.mul_of_prod (b := a) (k := [a.toRat]) hrep.ok.mult hok
          (hrep.mult.trans (product_eq L)) (by simp) h2
        simp only [StatOp.writeTo, Frac.ops, hr]
        exact ⟨_, rfl⟩
    · rintro a b L K ra rb ⟨h1, h2⟩
      rw [addends_append] at h1
      rw [mults_append] at h2
      obtain ⟨x, hx⟩ := Frac.add_of_sum ra.ok.addend rb.ok.addend (ra.addend.trans (total_eq L))
        (rb.addend.trans (total_eq K)) h1
      obtain ⟨y, hy⟩ := Frac.mul_of_prod ra.ok.mult rb.ok.mult (ra.mult.trans (product_eq L))
        (rb.mult.trans (product_eq K)) h2
      simp only [Frac.ops, hx, hy, Res.bind_ok]
      exact ⟨_, rfl⟩
  have rep := N.rep tr v hr hok hv
  obtain ⟨k1, k2⟩ := Frac.sum_parts rep.ok.addend.1 (rep.addend.trans (total_eq C))
  obtain ⟨k3, k4⟩ := Frac.prod_parts rep.ok.mult.1 (rep.mult.trans (product_eq C))
  have p1 := rep.ok.addend.1.pos
  have p2 := rep.ok.mult.1.pos
  obtain ⟨x, hx⟩ := Frac.mul_returns' rep.ok.addend rep.ok.mult (by
    have k3' : |(v.mult.num : ℚ)| ≤ numSize (mults C) := by exact_mod_cast k3
    have : |(v.addend.num : ℚ)| * |(v.mult.num : ℚ)| ≤ t.prim.hi :=
      le_trans (mul_le_mul k1 k3' (abs_nonneg _) ((abs_nonneg _).trans k1)) hn
    exact_mod_cast this)
    (le_trans (mul_le_mul k2 k4 p2.le (p1.le.trans k2)) hd)
  have he : (statFloat (Frac.ops t)).eval v = .ok ((Frac.ops t).max ((Frac.ops t).min x v.max) v.min) := by
    simp only [Frac.ops, hx, Res.bind_ok]
  exact ⟨v, _, hv, he, C22_closed_form_float t h hb tr hr hok v _ hv he⟩

/-- C22: `StatFloatAdditive<Fraction>` returns the closed form in every order of assembly when the numbers
fit. -/
theorem C22_no_overflow_additive (t : NumTy) (h : t.ovf = .panic) (hb : 1 < t.prim.bits)
    (tr : Tree (statFloatAdditive (Frac.ops t))) (hr : tr.NoReset)
    (hok : ∀ o ∈ tr.leaves, statFloatAdditive.okOp o) :
    let C := tr.leaves.map statFloatAdditive.fracContrib
    SumFits t (addends C) → SumFits t (mults C ++ [1]) →
    absSum (addends C) * denSize (addends C) * (absSum (mults C ++ [1]) * denSize (mults C)) ≤ t.prim.hi →
    denSize (addends C) * denSize (mults C) ≤ t.prim.hi →
    ∃ v out, tr.run = .ok v ∧ (statFloatAdditive (Frac.ops t)).eval v = .ok out ∧
      out.toRat = clampTo (total C * (1 + multSum C)) (floorOf (t.prim.lo : ℚ) C) (capOf (t.prim.hi : ℚ) C) := by
  intro C hA hM hn hd
  let N := statFloatAdditive.fracModel h hb
  have hC : tr.leaves.map N.contrib = C.map asMul := by rw [List.map_map]; rfl
  have rdm {v L} (hrep : N.Rep v L) : v.mult.toRat = ((mults L).map Multiplicative.toAdd).sum := by
    have := hrep.mult.trans (product_eq L)
    rw [← toAdd_list_sum, ← this]; rfl
  obtain ⟨v, hv⟩ : ∃ v, tr.run = .ok v := by
    refine N.returns (fun L => SumFits t (addends L) ∧ SumFits t ((mults L).map Multiplicative.toAdd))
      ?_ ?_ ?_ tr hr hok ⟨?_, ?_⟩
    · rintro L K ⟨h1, h2⟩
      rw [addends_append] at h1
      rw [mults_append, List.map_append] at h2
      exact ⟨⟨h1.of_append.1, h2.of_append.1⟩, h1.of_append.2, h2.of_append.2⟩
    · rintro v L o hnb hok hrep ⟨h1, h2⟩
      rw [addends_append] at h1
      rw [mults_append, List.map_append] at h2
      cases o with
      | base b => exact absurd trivial hnb
      | or b => exact b.elim
      | not b => exact b.elim
      | min b => exact ⟨_, rfl⟩
      | max b => exact ⟨_, rfl⟩
      | add a =>
        obtain ⟨r, hr⟩ := Frac.add_of_sum (b := a) (k := [a.toRat]) hrep.ok.addend hok
          (hrep.addend.trans (total_eq L)) (by simp) h1
        simp only [StatOp.writeTo, Frac.ops, hr]
        exact ⟨_, rfl⟩
      | mul a =>
        obtain ⟨r, hr⟩ := Frac.add_of_sum (b := a) (k := [a.toRat]) hrep.ok.mult hok (rdm hrep) (by simp) h2
        simp only [StatOp.writeTo, Frac.ops, hr]
        exact ⟨_, rfl⟩
    · rintro a b L K ra rb ⟨h1, h2⟩
      rw [addends_append] at h1
      rw [mults_append, List.map_append] at h2
      obtain ⟨x, hx⟩ := Frac.add_of_sum ra.ok.addend rb.ok.addend (ra.addend.trans (total_eq L))
        (rb.addend.trans (total_eq K)) h1
      obtain ⟨y, hy⟩ := Frac.add_of_sum ra.ok.mult rb.ok.mult (rdm ra) (rdm rb) h2
      simp only [Frac.ops, hx, hy, Res.bind_ok]
      exact ⟨_, rfl⟩
    · rw [hC, addends_asMul]; exact hA
    · rw [hC, mults_asMul]; exact hM.of_append.1
  have rep := N.rep tr v hr hok hv
  rw [hC] at rep
  have e1 : v.addend.toRat = (addends C).sum := by
    have := rep.addend.trans (total_eq _)
    rwa [addends_asMul] at this
  have e2 : v.mult.toRat = (mults C).sum := by rw [rdm rep, mults_asMul]
  obtain ⟨m, hm⟩ := Frac.add_of_sum (b := ⟨1, 1⟩) (k := [1]) rep.ok.mult (Frac.valid_one hb) e2
    (by simp [Frac.toRat]) hM
  obtain ⟨hmv, hme⟩ := Frac.add_valid h hb rep.ok.mult (Frac.valid_one hb) hm
  obtain ⟨k1, k2⟩ := Frac.sum_parts rep.ok.addend.1 e1
  obtain ⟨k3, k4⟩ := Frac.sum_parts hmv.1 (l := mults C ++ [1]) (by
    rw [hme, e2, List.sum_append]; simp [Frac.toRat])
  have e3 : denSize (mults C ++ [1]) = denSize (mults C) := by rw [denSize_append]; simp [denSize]
  rw [e3] at k3 k4
  obtain ⟨x, hx⟩ := Frac.mul_returns' rep.ok.addend hmv (by
    have : |(v.addend.num : ℚ)| * |(m.num : ℚ)| ≤ t.prim.hi :=
      le_trans (mul_le_mul k1 k3 (abs_nonneg _) ((abs_nonneg _).trans k1)) hn
    exact_mod_cast this)
    (le_trans (mul_le_mul k2 k4 hmv.1.pos.le (rep.ok.addend.1.pos.le.trans k2)) hd)
  have he : (statFloatAdditive (Frac.ops t)).eval v =
      .ok ((Frac.ops t).max ((Frac.ops t).min x v.max) v.min) := by
    simp only [Frac.ops, Frac.newRaw, hm, hx, Res.bind_ok]
  exact ⟨v, _, hv, he, C22_closed_form_additive t h hb tr hr hok v _ hv he⟩

/-- C22: `StatMult<Fraction>` returns the closed form in every order of assembly when the numbers fit. -/
theorem C22_no_overflow_mult (t : NumTy) (h : t.ovf = .panic) (hb : 1 < t.prim.bits)
    (tr : Tree (statMult (Frac.ops t))) (hr : tr.NoReset) (hok : ∀ o ∈ tr.leaves, statMult.okOp o) :
    let C := tr.leaves.map statMult.fracContrib
    ProdFits t (mults C) →
    ∃ v out, tr.run = .ok v ∧ (statMult (Frac.ops t)).eval v = .ok out ∧
      out.toRat = clampTo (product C) (floorOf (t.prim.lo : ℚ) C) (capOf (t.prim.hi : ℚ) C) := by
  intro C hM
  let N := statMult.fracModel h hb
  obtain ⟨v, hv⟩ : ∃ v, tr.run = .ok v := by
    refine N.returns (fun L => ProdFits t (mults L)) ?_ ?_ ?_ tr hr hok hM
    · intro L K h2
      rw [mults_append] at h2
      exact h2.of_append
    · intro v L o hnb hok hrep h2
      rw [mults_append] at h2
      cases o with
      | base b => exact absurd trivial hnb
      | or b => exact b.elim
      | not b => exact b.elim
      | add b => exact b.elim
      | min b => exact ⟨_, rfl⟩
      | max b => exact ⟨_, rfl⟩
      | mul a =>
        obtain ⟨r, hr⟩ := Frac.mul_of_prod (b := a) (k := [a.toRat]) hrep.ok.mult hok
          (hrep.mult.trans (product_eq L)) (by simp) h2
        simp only [StatOp.writeTo, Frac.ops, hr]
        exact ⟨_, rfl⟩
    · intro a b L K ra rb h2
      rw [mults_append] at h2
      obtain ⟨y, hy⟩ := Frac.mul_of_prod ra.ok.mult rb.ok.mult (ra.mult.trans (product_eq L))
        (rb.mult.trans (product_eq K)) h2
      simp only [Frac.ops, hy, Res.bind_ok]
      exact ⟨_, rfl⟩
  exact ⟨v, _, hv, rfl, C22_closed_form_mult t h hb tr hr hok v _ hv rfl⟩

/-- `3/2 * (1 + 1/2 + 1/3)` meets the conditions -/
example : let t : NumTy := ⟨.i32, .prim, .debug⟩
    let C : List (Contrib ℚ ℚ ℚ) := [.add (3 / 2), .mul (1 / 2), .mul (1 / 3), .atMost (5 / 2)]
    SumFits t (addends C) ∧ SumFits t (mults C ++ [1]) ∧ ProdFits t (mults C) ∧
    absSum (addends C) * denSize (addends C) * (absSum (mults C ++ [1]) * denSize (mults C)) ≤ t.prim.hi ∧
    denSize (addends C) * denSize (mults C) ≤ t.prim.hi ∧
    absSum (addends C) * denSize (addends C) * numSize (mults C) ≤ t.prim.hi := by
  simp only [addends, mults, absSum, denSize, numSize, SumFits, ProdFits]
  refine ⟨⟨by decide +kernel, by decide +kernel⟩, ⟨by decide +kernel, by decide +kernel⟩,
    ⟨by decide +kernel, by decide +kernel⟩, by decide +kernel, by decide +kernel, by decide +kernel⟩

/-! ## C26 -/

/-- C26, the part that holds: operations applied to a base return the closed form when the numbers met by
multiplying everything out fit the type.  Missing: everything about `default` and `join`
(`C26_default_not_identity`, `C26_mul_join_differ`). -/
theorem C26_no_overflow_partial (t : NumTy) (h : t.ovf = .panic) (hb : 1 < t.prim.bits)
    (hw : t.prim.bits ≤ 63 ∨ (t.prim.bits = 64 ∧ t.prim.signed = true)) (R : Rounding) (S : Int)
    (hS : t.prim.InRange S) (hS0 : S ≠ 0) (hS1 : |S| ≤ t.prim.hi) (b : Int) (hbr : t.prim.InRange b)
    (os : List (StatOp (statIntPercent t R S))) (hn : ∀ o ∈ os, ¬ o.IsBase)
    (ha : ∀ a : Int, StatOp.add a ∈ os → t.prim.InRange a)
    (hm : ∀ m : Int, StatOp.mul m ∈ os → t.prim.InRange m ∧ |m| ≤ t.prim.hi) :
    let C := os.map statIntPercent.contrib
    absSum (b :: addends C) ≤ t.prim.hi → ProdFits t (mults C) →
    absSum (b :: addends C) * numSize (mults C) + denSize (mults C) ≤ t.prim.hi →
    ∃ v z, StatOp.applyAll os ((statIntPercent t R S).fromBase b) = .ok v ∧
      Rounds R (((b + total C : ℤ) : ℚ) * product C) z ∧
      (statIntPercent t R S).eval v = .ok (clampTo z (floorOf t.prim.lo C) (capOf t.prim.hi C)) := by
  intro C hT hM hTM
  have hfS : t.fromI64 S = .ok S := by
    rw [C33_small_types_partial t (by omega) hw]
    unfold nearest
    rw [if_neg (not_lt.2 hS.1), if_neg (not_lt.2 hS.2)]
  have key : ∀ (os : List (StatOp (statIntPercent t R S))), (∀ o ∈ os, ¬ o.IsBase) →
      (∀ a : Int, StatOp.add a ∈ os → t.prim.InRange a) →
      (∀ m : Int, StatOp.mul m ∈ os → t.prim.InRange m ∧ |m| ≤ t.prim.hi) →
      ∀ (v0 : StatIntPercent) (A : List ℤ) (M : List ℚ), v0.mult.Valid t → t.prim.InRange v0.addend →
        v0.addend = A.sum → v0.mult.toRat = M.prod →
        absSum (A ++ addends (os.map statIntPercent.contrib)) ≤ t.prim.hi →
        ProdFits t (M ++ mults (os.map statIntPercent.contrib)) →
        ∃ v, StatOp.applyAll os v0 = .ok v ∧ v.mult.Valid t ∧ t.prim.InRange v.addend ∧
          v.addend = (A ++ addends (os.map statIntPercent.contrib)).sum ∧
          v.mult.toRat = (M ++ mults (os.map statIntPercent.contrib)).prod := by
    intro os
    induction os with
    | nil =>
      intro _ _ _ v0 A M h1 h2 h3 h4 _ _
      exact ⟨v0, rfl, h1, h2, by simpa [addends] using h3, by simpa [mults] using h4⟩
    | cons o os ih =>
      intro hn ha hm v0 A M h1 h2 h3 h4 h5 h6
      have ih := ih (fun o ho => hn o (by simp [ho])) (fun o ho => ha o (by simp [ho]))
        (fun o ho => hm o (by simp [ho]))
      have hno := hn o (by simp)
      cases o with
      | base b => exact absurd trivial hno
      | or b => exact b.elim
      | not b => exact b.elim
      | min x => exact ih { v0 with min := t.max v0.min x } A M h1 h2 h3 h4 h5 h6
      | max x => exact ih { v0 with max := t.min v0.max x } A M h1 h2 h3 h4 h5 h6
      | add a =>
        have har := ha a (by simp)
        have e : A ++ addends ((StatOp.add a :: os).map (statIntPercent.contrib (t := t) (R := R) (S := S))) =
            (A ++ [a]) ++ addends (os.map statIntPercent.contrib) := by
          simp [statIntPercent.contrib, addends]
        have e' : mults ((StatOp.add a :: os).map (statIntPercent.contrib (t := t) (R := R) (S := S))) =
            mults (os.map statIntPercent.contrib) := by simp [statIntPercent.contrib, mults]
        rw [e'] at h6 ⊢
        rw [e] at h5 ⊢
        have hsum : t.prim.InRange (v0.addend + a) := by
          refine IntTy.inRange_sum (L := A) (K := [a]) h2 har h3 (by simp) ?_
          rw [absSum_append, absSum_append] at h5
          have := absSum_nonneg (addends (os.map (statIntPercent.contrib (t := t) (R := R) (S := S))))
          omega
        have := ih { v0 with addend := v0.addend + a } (A ++ [a]) M h1 hsum (by simp [h3]) h4 h5 h6
        simpa only [StatOp.applyAll, StatOp.writeTo, NumTy.add, NumTy.fit_inRange hsum, Res.bind_ok] using this
      | mul m =>
        obtain ⟨hmr, hma⟩ := hm m (by simp)
        have e : M ++ mults ((StatOp.mul m :: os).map (statIntPercent.contrib (t := t) (R := R) (S := S))) =
            (M ++ [(m : ℚ) / S]) ++ mults (os.map statIntPercent.contrib) := by
          simp [statIntPercent.contrib, mults]
        have e' : addends ((StatOp.mul m :: os).map (statIntPercent.contrib (t := t) (R := R) (S := S))) =
            addends (os.map statIntPercent.contrib) := by simp [statIntPercent.contrib, addends]
        rw [e'] at h5 ⊢
        rw [e] at h6 ⊢
        obtain ⟨f, hf⟩ := Frac.reduce_returns (t := t) hS0 ⟨hmr, hma⟩ ⟨hS, hS1⟩
        obtain ⟨-, hfw, hfe⟩ := Frac.new_ok h hf
        have hfv : f.Valid t := ⟨hfw, Frac.new_fits hb hf⟩
        obtain ⟨x, hx⟩ := Frac.mul_of_prod h1 hfv h4 (k := [(m : ℚ) / S]) (by simpa using hfe) h6.of_append.1
        obtain ⟨hxv, hxe⟩ := Frac.mul_valid h hb h1 hfv hx
        have := ih { v0 with mult := x } A (M ++ [(m : ℚ) / S]) hxv h2 h3 (by simp [hxe, h4, hfe]) h5 h6
        simpa only [StatOp.applyAll, StatOp.writeTo, hfS, Res.bind_ok, NumTy.buildFraction, Frac.new,
          NumTy.primInt_of_panic h, hf, hx] using this
  obtain ⟨v, hv, hvm, hva, e1, e2⟩ := key os hn ha hm ((statIntPercent t R S).fromBase b) [b] []
    (Frac.valid_one hb) hbr (by simp) (by simp [Frac.ops, Frac.newRaw, Frac.toRat]) hT hM
  obtain ⟨k1, k2⟩ := Frac.prod_parts hvm.1 e2
  have k3 := abs_sum_le ([b] ++ addends C)
  rw [← e1] at k3
  simp only [List.singleton_append, List.nil_append] at k1 k2 k3 e1 e2
  change _ ≤ numSize (mults C) at k1
  change _ ≤ denSize (mults C) at k2
  have hnn : 0 ≤ absSum (b :: addends C) * numSize (mults C) :=
    mul_nonneg (absSum_nonneg _) (le_trans (abs_nonneg _) k1)
  have p1 := hvm.1.pos
  have hvi := Frac.valid_int hb hva
  have hmul : |v.addend| * |v.mult.num| ≤ absSum (b :: addends C) * numSize (mults C) :=
    mul_le_mul k3 k1 (abs_nonneg _) (absSum_nonneg _)
  have hdp := denSize_pos (mults C)
  obtain ⟨x, hx⟩ := Frac.mul_returns' hvi hvm (by simp only; omega) (by simp only; omega)
  obtain ⟨hxv, hxe⟩ := Frac.mul_valid h hb hvi hvm hx
  obtain ⟨l1, l2⟩ := Frac.parts_le hxv.1 (n := v.addend * v.mult.num) (d := v.mult.den) p1 (by
    rw [hxe, Frac.toRat_int]; simp only [Frac.toRat]; push_cast; ring)
  rw [abs_mul] at l1
  obtain ⟨z, hz, hzr⟩ := C31_returns t h hb R x hxv (by omega)
  have hi := Frac.toInteger_returns hb (Frac.apply_fits hb R hxv.2 hz).1
  have he : (statIntPercent t R S).eval v = .ok (t.max (t.min z v.max) v.min) := by
    simp only [NumTy.primInt_of_panic h, NumTy.intoFraction, Frac.newRaw, hx, Res.bind_ok, hz,
      NumTy.fromFraction, hi]
  obtain ⟨z', hz', he'⟩ := C26_ops_on_base_partial t h hb hw R S hS b os hn v _ hv he
  exact ⟨v, z', hv, hz', by rw [he, he']⟩

/-- a base of 100 at 150 % and 50 % -/
example : let C : List (Contrib ℤ ℚ ℤ) := [.mul (150 / 100), .mul (50 / 100), .add 7]
    absSum (100 :: addends C) ≤ IntTy.i32.hi ∧ ProdFits ⟨.i32, .prim, .debug⟩ (mults C) ∧
    absSum (100 :: addends C) * numSize (mults C) + denSize (mults C) ≤ IntTy.i32.hi := by
  simp only [addends, mults, absSum, denSize, numSize, ProdFits]
  refine ⟨by decide, ⟨by decide +kernel, by decide +kernel⟩, by decide +kernel⟩

/-! ## C62 -/

/-- C62: float multipliers never fail: if the magnitudes of the addends add up within the type, every order of
assembly returns a value, which evaluates, whatever the multipliers (NaN and infinities included). -/
theorem C62_no_overflow (t : NumTy) (f : Fmt) (hf : f.Normal) (R : Rounding)
    (tr : Tree (statIntFl t f R)) (hr : tr.NoReset)
    (ha : ∀ a ∈ addends (tr.leaves.map statIntFloatMul.contrib), t.prim.InRange a)
    (hs : absSum (addends (tr.leaves.map statIntFloatMul.contrib)) ≤ t.prim.hi) :
    ∃ v out, tr.run = .ok v ∧ v.addend = total (tr.leaves.map statIntFloatMul.contrib) ∧
      (statIntFl t f R).eval v = .ok out := by
  have hev : ∀ v : StatIntFloatMul Fl, ∃ out, (statIntFl t f R).eval v = .ok out := by
    intro v
    have hx : ∀ x : Fl, ∃ r, R.apply (Fl.ops f) x = .ok r := by
      intro x
      by_cases hx : ∃ q, x = .fin q
      · obtain ⟨q, rfl⟩ := hx
        obtain ⟨z, hz, _⟩ := C31_floats f hf R q
        exact ⟨_, hz⟩
      · exact ⟨_, C31_floats_special f hf R x fun q e => hx ⟨q, e⟩⟩
    obtain ⟨r, hr⟩ := hx (Fl.mul f (Fl.ofInt f v.addend) v.mult)
    simp only [Res.bind_ok, hr]
    exact ⟨_, rfl⟩
  have key : ∀ tr : Tree (statIntFl t f R), tr.NoReset →
      (∀ a ∈ addends (tr.leaves.map statIntFloatMul.contrib), t.prim.InRange a) →
      absSum (addends (tr.leaves.map statIntFloatMul.contrib)) ≤ t.prim.hi →
      ∃ v, tr.run = .ok v ∧ v.addend = total (tr.leaves.map statIntFloatMul.contrib) ∧
        t.prim.InRange v.addend := by
    intro tr
    induction tr with
    | dflt => exact fun _ _ _ => ⟨_, rfl, rfl, t.prim.inRange_zero⟩
    | base b =>
      exact fun _ ha _ => ⟨_, rfl, by simp [Tree.leaves, statIntFloatMul.contrib, total],
        ha b (by simp [Tree.leaves, statIntFloatMul.contrib, addends])⟩
    | op tr o ih =>
      intro ⟨hnb, hn⟩ ha hs
      simp only [Tree.leaves, List.map_append, List.map_singleton, addends_append, absSum_append,
        List.mem_append] at ha hs
      have hnn := absSum_nonneg (addends [statIntFloatMul.contrib o])
      obtain ⟨v, h1, h2, h3⟩ := ih ‹_› (fun a h => ha a (.inl h)) (by omega)
      simp only [Tree.run, h1, Res.bind_ok, Tree.leaves, List.map_append, List.map_singleton, total_append,
        ← h2]
      cases o with
      | or x => exact x.elim
      | not x => exact x.elim
      | base x => exact absurd trivial ‹_›
      | add a =>
        have hsum : t.prim.InRange (v.addend + a) :=
          IntTy.inRange_sum (K := [a]) h3
            (ha a (.inr (by simp [statIntFloatMul.contrib, addends]))) (h2.trans (total_eq _)) (by simp)
            (by simpa [statIntFloatMul.contrib, addends] using hs)
        refine ⟨{ v with addend := v.addend + a }, ?_, by simp [statIntFloatMul.contrib, total], hsum⟩
        simp only [StatOp.writeTo, NumTy.add, NumTy.fit_inRange hsum, Res.bind_ok]
      | mul m => exact ⟨_, rfl, by simp [statIntFloatMul.contrib, total], h3⟩
      | min m => exact ⟨_, rfl, by simp [statIntFloatMul.contrib, total], h3⟩
      | max m => exact ⟨_, rfl, by simp [statIntFloatMul.contrib, total], h3⟩
    | join l r ihl ihr =>
      intro ⟨hl, hr⟩ ha hs
      simp only [Tree.leaves, List.map_append, addends_append, absSum_append, List.mem_append] at ha hs
      have n1 := absSum_nonneg (addends (l.leaves.map statIntFloatMul.contrib))
      have n2 := absSum_nonneg (addends (r.leaves.map statIntFloatMul.contrib))
      obtain ⟨a, a1, a2, a3⟩ := ihl hl (fun a h => ha a (.inl h)) (by omega)
      obtain ⟨b, b1, b2, b3⟩ := ihr hr (fun a h => ha a (.inr h)) (by omega)
      have hsum : t.prim.InRange (a.addend + b.addend) :=
        IntTy.inRange_sum a3 b3 (a2.trans (total_eq _)) (b2.trans (total_eq _)) hs
      refine ⟨{ addend := a.addend + b.addend, mult := Fl.mul f a.mult b.mult, min := t.max a.min b.min,
                max := t.min a.max b.max }, ?_, ?_, hsum⟩
      · simp only [Tree.run, a1, b1, Res.bind_ok, NumTy.add, NumTy.fit_inRange hsum]
      · simp [Tree.leaves, total_append, a2, b2]
  obtain ⟨v, h1, h2, -⟩ := key tr hr ha hs
  obtain ⟨out, ho⟩ := hev v
  exact ⟨v, out, h1, h2, ho⟩

/-- two bases near the half of `i32`, and a multiplier which is not a number -/
example : let tr : Tree (statIntFl ⟨.i32, .prim, .debug⟩ .f32 .truncate) :=
      .join (.op (.base 1073741823) (.mul .nan)) (.op (.base 1073741823) (.add (-1)))
    tr.NoReset ∧ (∀ a ∈ addends (tr.leaves.map statIntFloatMul.contrib), IntTy.i32.InRange a) ∧
      absSum (addends (tr.leaves.map statIntFloatMul.contrib)) ≤ IntTy.i32.hi := by
  simp only [Tree.NoReset, Tree.leaves, List.cons_append, List.nil_append, List.map_cons, List.map_nil,
    statIntFloatMul.contrib, addends, absSum, StatOp.IsBase]
  decide

end BSQ
