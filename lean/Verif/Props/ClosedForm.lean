import Verif.Spec.ClosedForm
import Verif.Props.Assembled
import Verif.Props.Misc
/-!
# C112: queries over arbitrary sources evaluate to the closed form
-/
namespace BSQ
open Contrib
set_option linter.unusedSectionVars false
variable {E : Env} {Q Ent : Type} {A : Addr E} {J : Joined E Q Ent}

theorem Hereditary.of_append {α : Type} {F : List α → Prop} (hp : ∀ L L', L.Perm L' → F L → F L')
    (ha : ∀ M K, F (M ++ K) → F M) : Hereditary F := by
  rintro L M ⟨M', hM', hsub⟩ h
  obtain ⟨K, hK⟩ := hsub.exists_perm_append
  exact ha M K (hp _ _ (hK.trans (hM'.append (.refl K))) h)

/-! ### the closed forms -/

/-- C112: `StatInt`, checked -/
theorem C112_closed_int (t : NumTy) (ht : t.ovf = .panic) :
    ClosedForm (statInt t) (fun o => t.prim.InRange (statInt.contrib o).num) (statInt.Fits t) (statInt.Value t) where
  hereditary := statInt.fits_hereditary t
  eval tr h1 h2 h3 := by
    obtain ⟨v, hv, ho⟩ := C16_no_overflow t ht tr h1 h2 h3.1 h3.2.1 h3.2.2
    exact ⟨v, _, hv, ho, rfl⟩
  perm L L' out hp h := by
    have hp := hp.map (statInt.contrib (t := t))
    unfold statInt.Value at *
    simpa only [total_perm hp, product_perm hp, floorOf_perm _ hp, capOf_perm _ hp] using h

/-- C112: `StatInt`, wrapping: whatever the operands -/
theorem C112_closed_int_wrapping (t : NumTy) (ht : t.ovf = .wrap) (hb : 1 < t.prim.bits) :
    ClosedForm (statInt t) (fun o => t.prim.InRange (statInt.contrib o).num) (fun _ => True)
      (statInt.WrapValue t) where
  hereditary _ _ _ _ := trivial
  eval tr h1 h2 _ := by
    obtain ⟨v, hv, ho⟩ := C16_closed_form_wrapping t ht hb tr h1 h2
    exact ⟨v, _, hv, ho, rfl⟩
  perm L L' out hp h := by
    have hp := hp.map (statInt.contrib (t := t))
    unfold statInt.WrapValue at *
    simpa only [total_perm hp, product_perm hp, floorOf_perm _ hp, capOf_perm _ hp] using h

/-- C112: `StatIntPercentAdditive` -/
theorem C112_closed_percent_additive (t : NumTy) (ht : t.ovf = .panic) (hb : 1 < t.prim.bits)
    (hw : t.prim.bits ≤ 63 ∨ (t.prim.bits = 64 ∧ t.prim.signed = true)) (R : Rounding) (S : Int)
    (hS : t.prim.InRange S) (hS0 : S ≠ 0) :
    ClosedForm (statIntPercentAdditive t R S) statIntPercentAdditive.okOp (statIntPercentAdditive.Fits t)
      (statIntPercentAdditive.Value t) where
  hereditary := by
    refine .of_append (fun L L' hp h => ?_) fun M K h => ?_
    · have hp := hp.map (statIntPercentAdditive.contrib (t := t) (R := R) (S := S))
      unfold statIntPercentAdditive.Fits at *
      simpa only [absSum_perm_int (addends_perm hp), absSum_perm_int (mults_perm hp)] using h
    · unfold statIntPercentAdditive.Fits at *
      simp only [List.map_append, addends_append, mults_append, absSum_append] at h ⊢
      have a1 := absSum_nonneg (addends (M.map statIntPercentAdditive.contrib))
      have a2 := absSum_nonneg (addends (K.map statIntPercentAdditive.contrib))
      have b1 := absSum_nonneg (mults (M.map statIntPercentAdditive.contrib))
      have b2 := absSum_nonneg (mults (K.map statIntPercentAdditive.contrib))
      have c := abs_nonneg S
      obtain ⟨h1, h2, h3⟩ := h
      refine ⟨by omega, by omega, le_trans (add_le_add ?_ le_rfl) h3⟩
      exact mul_le_mul (by omega) (by omega) (by omega) (by omega)
  eval tr h1 h2 h3 := by
    obtain ⟨v, z, hv, hz, ho⟩ := C20_no_overflow t ht hb hw R S hS hS0 tr h1 h2 h3.1 h3.2.1 h3.2.2
    exact ⟨v, _, hv, ho, z, hz, rfl⟩
  perm L L' out hp h := by
    have hp := hp.map (statIntPercentAdditive.contrib (t := t) (R := R) (S := S))
    unfold statIntPercentAdditive.Value at *
    simpa only [total_perm hp, multSum_perm hp, floorOf_perm _ hp, capOf_perm _ hp] using h

/-- C112: `StatIntFraction` -/
theorem C112_closed_fraction (t : NumTy) (ht : t.ovf = .panic) (hb : 1 < t.prim.bits) (R : Rounding) :
    ClosedForm (statIntFraction t R) statIntFraction.okOp (statIntFraction.Fits t) (statIntFraction.Value t) where
  hereditary := by
    refine .of_append (fun L L' hp h => ?_) fun M K h => ?_
    · have hp := hp.map (statIntFraction.contrib (t := t) (R := R))
      unfold statIntFraction.Fits at *
      simpa only [absSum_perm_int (addends_perm hp), numSize_perm (mults_perm hp), denSize_perm (mults_perm hp)]
        using h
    · unfold statIntFraction.Fits at *
      simp only [List.map_append, addends_append, mults_append, absSum_append, numSize_append, denSize_append] at h ⊢
      have a1 := absSum_nonneg (addends (M.map statIntFraction.contrib))
      have a2 := absSum_nonneg (addends (K.map statIntFraction.contrib))
      have b1 := numSize_pos (mults (M.map statIntFraction.contrib))
      have b2 := numSize_pos (mults (K.map statIntFraction.contrib))
      have c1 := denSize_pos (mults (M.map statIntFraction.contrib))
      have c2 := denSize_pos (mults (K.map statIntFraction.contrib))
      obtain ⟨h1, h2, h3⟩ := h
      have n : numSize (mults (M.map statIntFraction.contrib)) ≤
        numSize (mults (M.map statIntFraction.contrib)) * numSize (mults (K.map statIntFraction.contrib)) := by
        nlinarith
      refine ⟨by omega, by omega, le_trans (add_le_add ?_ ?_) h3⟩
      · exact mul_le_mul n (by omega) (by omega) (by omega)
      · nlinarith
  eval tr h1 h2 h3 := by
    obtain ⟨v, z, hv, hz, ho⟩ := C21_no_overflow t ht hb R tr h1 h2 h3.1 h3.2.1 h3.2.2
    exact ⟨v, _, hv, ho, z, hz, rfl⟩
  perm L L' out hp h := by
    have hp := hp.map (statIntFraction.contrib (t := t) (R := R))
    unfold statIntFraction.Value at *
    simpa only [total_perm hp, product_perm hp, floorOf_perm _ hp, capOf_perm _ hp] using h

/-- C112: `StatFloat<Fraction>` -/
theorem C112_closed_float_frac (t : NumTy) (ht : t.ovf = .panic) (hb : 1 < t.prim.bits) :
    ClosedForm (statFloat (Frac.ops t)) statFloat.okOp (statFloat.FracFits t) (statFloat.FracValue t) where
  hereditary := by
    refine .of_append (fun L L' hp h => ?_) fun M K h => ?_
    · have hp := hp.map (statFloat.fracContrib (t := t))
      have pa := addends_perm hp
      have pm := mults_perm hp
      unfold statFloat.FracFits at *
      simpa only [SumFits, ProdFits, absSum_perm pa, numSize_perm pm, denSize_perm pa, denSize_perm pm] using h
    · unfold statFloat.FracFits at *
      simp only [List.map_append, addends_append, mults_append] at h ⊢
      obtain ⟨h1, h2, h3, h4⟩ := h
      refine ⟨h1.of_append.1, h2.of_append.1, ?_, ?_⟩
      · rw [absSum_append, denSize_append, numSize_append] at h3
        have a1 := absSum_nonneg (addends (M.map (statFloat.fracContrib (t := t))))
        have a2 := absSum_nonneg (addends (K.map (statFloat.fracContrib (t := t))))
        have b1 := denSize_pos (addends (M.map (statFloat.fracContrib (t := t))))
        have b2 := denSize_pos (addends (K.map (statFloat.fracContrib (t := t))))
        have c1 := numSize_pos (mults (M.map (statFloat.fracContrib (t := t))))
        have c2 := numSize_pos (mults (K.map (statFloat.fracContrib (t := t))))
        refine le_trans ?_ h3
        push_cast
        have b1' : (1 : ℚ) ≤ denSize (addends (M.map (statFloat.fracContrib (t := t)))) := by exact_mod_cast b1
        have b2' : (1 : ℚ) ≤ denSize (addends (K.map (statFloat.fracContrib (t := t)))) := by exact_mod_cast b2
        have c1' : (1 : ℚ) ≤ numSize (mults (M.map (statFloat.fracContrib (t := t)))) := by exact_mod_cast c1
        have c2' : (1 : ℚ) ≤ numSize (mults (K.map (statFloat.fracContrib (t := t)))) := by exact_mod_cast c2
        have m1 := le_mul_of_one_le_right (zero_le_one.trans b1') b2'
        have m2 := le_mul_of_one_le_right (zero_le_one.trans c1') c2'
        gcongr
        linarith
      · rw [denSize_append, denSize_append] at h4
        have b1 := denSize_pos (addends (M.map (statFloat.fracContrib (t := t))))
        have b2 := denSize_pos (addends (K.map (statFloat.fracContrib (t := t))))
        have c1 := denSize_pos (mults (M.map (statFloat.fracContrib (t := t))))
        have c2 := denSize_pos (mults (K.map (statFloat.fracContrib (t := t))))
        refine le_trans ?_ h4
        have m1 := le_mul_of_one_le_right (zero_le_one.trans b1) b2
        have m2 := le_mul_of_one_le_right (zero_le_one.trans c1) c2
        exact mul_le_mul m1 m2 (zero_le_one.trans c1) (by positivity)
  eval tr h1 h2 h3 := C22_no_overflow_float t ht hb tr h1 h2 h3.1 h3.2.1 h3.2.2.1 h3.2.2.2
  perm L L' out hp h := by
    have hp := hp.map (statFloat.fracContrib (t := t))
    unfold statFloat.FracValue at *
    simpa only [total_perm hp, product_perm hp, floorOf_perm _ hp, capOf_perm _ hp] using h

/-- C112: `StatFloatAdditive<Fraction>` -/
theorem C112_closed_additive_frac (t : NumTy) (ht : t.ovf = .panic) (hb : 1 < t.prim.bits) :
    ClosedForm (statFloatAdditive (Frac.ops t)) statFloatAdditive.okOp (statFloatAdditive.FracFits t)
      (statFloatAdditive.FracValue t) where
  hereditary := by
    refine .of_append (fun L L' hp h => ?_) fun M K h => ?_
    · have hp := hp.map (statFloatAdditive.fracContrib (t := t))
      have pa := addends_perm hp
      have pm := mults_perm hp
      unfold statFloatAdditive.FracFits at *
      simpa only [SumFits, absSum_perm pa, absSum_perm (pm.append_right [1]), denSize_perm pa, denSize_perm pm,
        denSize_perm (pm.append_right [1])] using h
    · unfold statFloatAdditive.FracFits at *
      simp only [List.map_append, addends_append, mults_append] at h ⊢
      obtain ⟨h1, h2, h3, h4⟩ := h
      generalize addends (M.map (statFloatAdditive.fracContrib (t := t))) = a at *
      generalize addends (K.map (statFloatAdditive.fracContrib (t := t))) = a' at *
      generalize mults (M.map (statFloatAdditive.fracContrib (t := t))) = m at *
      generalize mults (K.map (statFloatAdditive.fracContrib (t := t))) = m' at *
      have b1 : (1 : ℚ) ≤ denSize a := by exact_mod_cast denSize_pos a
      have b2 : (1 : ℚ) ≤ denSize a' := by exact_mod_cast denSize_pos a'
      have c1 : (1 : ℚ) ≤ denSize m := by exact_mod_cast denSize_pos m
      have c2 : (1 : ℚ) ≤ denSize m' := by exact_mod_cast denSize_pos m'
      have a1 := absSum_nonneg a
      have a2 := absSum_nonneg a'
      have m1 := absSum_nonneg m
      have m2 := absSum_nonneg m'
      have n1 := le_mul_of_one_le_right (zero_le_one.trans b1) b2
      have n2 := le_mul_of_one_le_right (zero_le_one.trans c1) c2
      have o1 := absSum_nonneg [(1 : ℚ)]
      have p : (m ++ m' ++ [1]).Perm (m ++ [1] ++ m') := by
        rw [List.append_assoc, List.append_assoc]; exact List.perm_append_comm.append_left m
      refine ⟨h1.of_append.1, ?_, ?_, ?_⟩
      · have : SumFits t (m ++ [1] ++ m') := by
          unfold SumFits at *; rwa [← absSum_perm p, ← denSize_perm p]
        exact this.of_append.1
      · simp only [absSum_append, denSize_append] at h3 ⊢
        refine le_trans ?_ h3
        push_cast
        gcongr <;> linarith
      · simp only [denSize_append] at h4
        have b1 := denSize_pos a
        have b2 := denSize_pos a'
        have c1 := denSize_pos m
        have c2 := denSize_pos m'
        refine le_trans ?_ h4
        have m1 := le_mul_of_one_le_right (zero_le_one.trans b1) b2
        have m2 := le_mul_of_one_le_right (zero_le_one.trans c1) c2
        exact mul_le_mul m1 m2 (zero_le_one.trans c1) (by positivity)
  eval tr h1 h2 h3 := C22_no_overflow_additive t ht hb tr h1 h2 h3.1 h3.2.1 h3.2.2.1 h3.2.2.2
  perm L L' out hp h := by
    have hp := hp.map (statFloatAdditive.fracContrib (t := t))
    unfold statFloatAdditive.FracValue at *
    simpa only [total_perm hp, multSum_perm hp, floorOf_perm _ hp, capOf_perm _ hp] using h

/-- C112: `StatMult<Fraction>` -/
theorem C112_closed_mult_frac (t : NumTy) (ht : t.ovf = .panic) (hb : 1 < t.prim.bits) :
    ClosedForm (statMult (Frac.ops t)) statMult.okOp (statMult.FracFits t) (statMult.FracValue t) where
  hereditary := by
    refine .of_append (fun L L' hp h => ?_) fun M K h => ?_
    · have pm := mults_perm (hp.map (statMult.fracContrib (t := t)))
      unfold statMult.FracFits at *
      simpa only [ProdFits, numSize_perm pm, denSize_perm pm] using h
    · unfold statMult.FracFits at *
      simp only [List.map_append, mults_append] at h
      exact h.of_append.1
  eval tr h1 h2 h3 := C22_no_overflow_mult t ht hb tr h1 h2 h3
  perm L L' out hp h := by
    have hp := hp.map (statMult.fracContrib (t := t))
    unfold statMult.FracValue at *
    simpa only [product_perm hp, floorOf_perm _ hp, capOf_perm _ hp] using h

theorem hiProd_perm {l k : List ℚ} (h : l.Perm k) : hiProd l = hiProd k := (h.map _).prod_eq

/-- C112: `StatFloat` over `f32` and `f64` -/
theorem C112_closed_float (f : Fmt) (hf : f.Normal) :
    ClosedForm (statFloat (Fl.ops f)) (statFloat.Num f) (statFloat.FlFits f) (statFloat.FlValue f) where
  hereditary := by
    refine .of_append (fun L L' hp h => ?_) fun M K h => ?_
    · have hp := hp.map (statFloat.qContrib (O := Fl.ops f))
      have pa := addends_perm hp
      have pm := mults_perm hp
      refine ⟨h.1.perm pa, h.2.1.perm pm, ?_⟩
      rw [← pa.length_eq, ← pm.length_eq, ← absSum_perm pa, ← hiProd_perm pm]
      exact h.2.2
    · unfold statFloat.FlFits at *
      simp only [List.map_append, addends_append, mults_append] at h ⊢
      obtain ⟨h1, h2, h3⟩ := h
      refine ⟨h1.of_append.1, h2.of_append.1, le_trans ?_ h3⟩
      generalize addends (M.map (statFloat.qContrib (O := Fl.ops f))) = a at *
      generalize addends (K.map (statFloat.qContrib (O := Fl.ops f))) = a' at *
      generalize mults (M.map (statFloat.qContrib (O := Fl.ops f))) = m at *
      generalize mults (K.map (statFloat.qContrib (O := Fl.ops f))) = m' at *
      have g : f.growth (a.length + m.length) ≤ f.growth ((a ++ a').length + (m ++ m').length) :=
        f.growth_mono (by simp only [List.length_append]; omega)
      have g0 := f.growth_pos (a.length + m.length)
      have a1 := absSum_nonneg a
      have a2 := absSum_nonneg a'
      have b1 := one_le_hiProd m
      have b2 := one_le_hiProd m'
      have n := le_mul_of_one_le_right (zero_le_one.trans b1) b2
      rw [absSum_append, hiProd_append]
      gcongr
      · exact (f.growth_pos _).le
      · linarith
  eval tr h1 h2 h3 := by
    obtain ⟨v, x, hv, hx, hb⟩ := C84_float f hf tr h1 h2 h3.1 h3.2.1 (le_trans (by
      have := f.growth_pos ((addends (tr.leaves.map statFloat.qContrib)).length +
        (mults (tr.leaves.map statFloat.qContrib)).length)
      have := absSum_nonneg (addends (tr.leaves.map (statFloat.qContrib (O := Fl.ops f))))
      rw [product_eq]
      gcongr
      exact prod_le_hiProd _) h3.2.2)
    exact ⟨v, _, hv, hx, x, rfl, hb⟩
  perm L L' out hp h := by
    have hp := hp.map (statFloat.qContrib (O := Fl.ops f))
    have pa := addends_perm hp
    have pm := mults_perm hp
    unfold statFloat.FlValue at *
    simpa only [total_perm hp, product_perm hp, floorOf_perm _ hp, capOf_perm _ hp, pa.length_eq, pm.length_eq,
      absSum_perm pa] using h

/-- C112: `StatFloatAdditive` over `f32` and `f64` -/
theorem C112_closed_additive (f : Fmt) (hf : f.Normal) :
    ClosedForm (statFloatAdditive (Fl.ops f)) (statFloatAdditive.Num f) (statFloatAdditive.FlFits f)
      (statFloatAdditive.FlValue f) where
  hereditary := by
    refine .of_append (fun L L' hp h => ?_) fun M K h => ?_
    · have hp := hp.map (statFloatAdditive.qContrib (O := Fl.ops f))
      have pa := addends_perm hp
      have pm := mults_perm hp
      refine ⟨h.1.perm pa, h.2.1.perm (pm.append_right _), ?_⟩
      rw [← pa.length_eq, ← pm.length_eq, ← absSum_perm pa, ← absSum_perm pm]
      exact h.2.2
    · unfold statFloatAdditive.FlFits at *
      simp only [List.map_append, addends_append, mults_append] at h ⊢
      obtain ⟨h1, h2, h3⟩ := h
      generalize addends (M.map (statFloatAdditive.qContrib (O := Fl.ops f))) = a at *
      generalize addends (K.map (statFloatAdditive.qContrib (O := Fl.ops f))) = a' at *
      generalize mults (M.map (statFloatAdditive.qContrib (O := Fl.ops f))) = m at *
      generalize mults (K.map (statFloatAdditive.qContrib (O := Fl.ops f))) = m' at *
      have p : (m ++ m' ++ [1]).Perm (m ++ [1] ++ m') := by
        rw [List.append_assoc, List.append_assoc]; exact List.perm_append_comm.append_left m
      refine ⟨h1.of_append.1, (h2.perm p).of_append.1, le_trans ?_ h3⟩
      have g : f.growth (a.length + m.length + 1) ≤ f.growth ((a ++ a').length + (m ++ m').length + 1) :=
        f.growth_mono (by simp only [List.length_append]; omega)
      have g0 := f.growth_pos (a.length + m.length + 1)
      have a1 := absSum_nonneg a
      have a2 := absSum_nonneg a'
      have b1 := absSum_nonneg m
      have b2 := absSum_nonneg m'
      rw [absSum_append, absSum_append]
      gcongr
      · exact (f.growth_pos _).le
      · linarith
      · linarith
  eval tr h1 h2 h3 := by
    obtain ⟨v, x, hv, hx, hb⟩ := C84_additive f hf tr h1 h2 h3.1 h3.2.1 h3.2.2
    exact ⟨v, _, hv, hx, x, rfl, hb⟩
  perm L L' out hp h := by
    have hp := hp.map (statFloatAdditive.qContrib (O := Fl.ops f))
    have pa := addends_perm hp
    have pm := mults_perm hp
    unfold statFloatAdditive.FlValue at *
    simpa only [total_perm hp, multSum_perm hp, floorOf_perm _ hp, capOf_perm _ hp, pa.length_eq, pm.length_eq,
      absSum_perm pa, absSum_perm pm] using h

/-- C112: `StatMult` over `f32` and `f64` -/
theorem C112_closed_mult (f : Fmt) (hf : f.Normal) :
    ClosedForm (statMult (Fl.ops f)) (statMult.Num f) (statMult.FlFits f) (statMult.FlValue f) where
  hereditary := by
    refine .of_append (fun L L' hp h => ?_) fun M K h => ?_
    · exact h.perm (mults_perm (hp.map (statMult.qContrib (O := Fl.ops f))))
    · unfold statMult.FlFits at *
      simp only [List.map_append, mults_append] at h
      exact h.of_append.1
  eval tr h1 h2 h3 := by
    obtain ⟨v, x, hv, hx, hb⟩ := C84_mult f hf tr h1 h2 h3
    exact ⟨v, _, hv, hx, x, rfl, hb⟩
  perm L L' out hp h := by
    have hp := hp.map (statMult.qContrib (O := Fl.ops f))
    have pm := mults_perm hp
    unfold statMult.FlValue at *
    simpa only [product_perm hp, floorOf_perm _ hp, capOf_perm _ hp, pm.length_eq] using h

/-- C112: `StatIntFloatMul` with multipliers in `f32` and `f64` -/
theorem C112_closed_int_float_mul (t : NumTy) (ht : t.ovf = .panic) (f : Fmt) (hf : f.Normal) (R : Rounding) :
    ClosedForm (statIntFl t f R) (statIntFloatMul.Num f) (statIntFloatMul.FlFits t f)
      (statIntFloatMul.FlValue t f) where
  hereditary := by
    refine .of_append (fun L L' hp h => ?_) fun M K h => ?_
    · have hp := hp.map (statIntFloatMul.contrib (t := t) (O := Fl.ops f) (toF := Fl.ofInt f)
        (ofF := Fl.toInt t.prim) (R := R))
      have pa := addends_perm hp
      have pm := mults_perm hp
      unfold statIntFloatMul.FlFits at *
      refine ⟨?_, h.2.1.perm pm, ?_, ?_⟩
      · rw [← absSum_perm_int pa]; exact h.1
      · rw [← absSum_perm_int pa]; exact h.2.2.1
      · rw [← pm.length_eq, ← absSum_perm_int pa, ← hiProd_perm pm]; exact h.2.2.2
    · unfold statIntFloatMul.FlFits at *
      simp only [List.map_append, addends_append, mults_append] at h ⊢
      obtain ⟨h1, h2, h3, h4⟩ := h
      generalize addends (M.map statIntFloatMul.contrib) = a at *
      generalize addends (K.map statIntFloatMul.contrib) = a' at *
      generalize mults (M.map statIntFloatMul.contrib) = m at *
      generalize mults (K.map statIntFloatMul.contrib) = m' at *
      have g : f.growth (m.length + 2) ≤ f.growth ((m ++ m').length + 2) :=
        f.growth_mono (by simp only [List.length_append]; omega)
      have g0 := f.growth_pos (m.length + 2)
      have a1 := absSum_nonneg a
      have a2 := absSum_nonneg a'
      have a1' : (0 : ℚ) ≤ (absSum a : ℤ) := by exact_mod_cast a1
      have a2' : (0 : ℚ) ≤ (absSum a' : ℤ) := by exact_mod_cast a2
      have b1 := one_le_hiProd m
      have b2 := one_le_hiProd m'
      have n := le_mul_of_one_le_right (zero_le_one.trans b1) b2
      rw [absSum_append] at h1 h3 h4
      push_cast at h3 h4
      refine ⟨by omega, h2.of_append.1, by linarith, le_trans ?_ h4⟩
      rw [hiProd_append]
      gcongr
      · exact (f.growth_pos _).le
      · linarith
  eval tr h1 h2 h3 := by
    obtain ⟨k1, k2, k3, k4⟩ := h3
    have e : |((total (tr.leaves.map statIntFloatMul.contrib) : ℤ) : ℚ)| ≤
        ((absSum (addends (tr.leaves.map statIntFloatMul.contrib)) : ℤ) : ℚ) := by
      rw [total_eq]; exact_mod_cast abs_sum_le _
    refine C84_int_float_mul t ht f hf R tr h1 h2 k1 k2 (e.trans k3) (le_trans ?_ k4)
    have := f.growth_pos ((mults (tr.leaves.map statIntFloatMul.contrib)).length + 2)
    rw [product_eq]
    have := prod_le_hiProd (mults (tr.leaves.map statIntFloatMul.contrib))
    gcongr
    exact (abs_nonneg _).trans e
  perm L L' out hp h := by
    have hp := hp.map (statIntFloatMul.contrib (t := t) (O := Fl.ops f) (toF := Fl.ofInt f)
        (ofF := Fl.toInt t.prim) (R := R))
    have pm := mults_perm hp
    unfold statIntFloatMul.FlValue at *
    simpa only [total_perm hp, product_perm hp, floorOf_perm _ hp, capOf_perm _ hp, pm.length_eq] using h

/-- C112: `StatFlags`, whatever the operands -/
theorem C112_closed_flags (T : Type) [BitXorFlags T] [FlagSetXor T] :
    ClosedForm (statFlags T) (fun _ => True) (fun _ => True) (statFlags.Value T) where
  hereditary _ _ _ _ := trivial
  eval tr h1 _ _ := C17_flags T tr h1
  perm L L' out hp h f := by rw [h f]; simp only [hp.mem_iff]

/-- C112: `StatExists` -/
theorem C112_closed_exists : ClosedForm statExists (fun _ => True) (fun _ => True) statExists.Value where
  hereditary _ _ _ _ := trivial
  eval tr h1 _ _ := C18_exists tr h1
  perm L L' out hp h := by unfold statExists.Value at *; rw [h]; simp only [hp.mem_iff]

/-- C112: `StatOnce` -/
theorem C112_closed_once (T : Type) : ClosedForm (statOnce T) (fun _ => True) (fun _ => True) (statOnce.Value T) where
  hereditary _ _ _ _ := trivial
  eval tr h1 _ _ := by
    obtain ⟨v, hv, ho⟩ := C19_once T tr h1
    exact ⟨v, _, hv, ho, rfl⟩
  perm L L' out hp h := by
    unfold statOnce.Value at *
    rw [h]
    have : ∀ l l' : List T, l.Perm l' → onceSpec l = onceSpec l' := by
      intro l l' h
      match l, l', h.length_eq with
      | [], [], _ => rfl
      | [x], [y], _ => rw [List.singleton_perm_singleton.1 h]
      | _ :: _ :: _, _ :: _ :: _, _ => rfl
    exact this _ _ (hp.filterMap _)

/-! ### queries -/

section
variable {V : Type} {D : StatValue V} {okOp : StatOp D → Prop} {Fits : List (StatOp D) → Prop}
  {Value : List (StatOp D) → D.Out → Prop}

theorem ClosedForm.assembled (hC : ClosedForm D okOp Fits Value) {X : (V : Type) × StatValue V} (hD : X = ⟨V, D⟩)
    {v : X.1} {L : List (StatOp X.2)} (hv : Assembles X.2 (fun o => okOp (asOp hD o)) v L)
    (hf : Fits (asOps hD L)) : ∃ out, X.2.eval v = .ok out ∧ Value (asOps hD L) (asOut hD out) := by
  cases hD
  obtain ⟨t, h1, h2, h3, h4⟩ := hv
  obtain ⟨w, out, h5, h6, h7⟩ := hC.eval t h1 h2 (hC.hereditary _ _ h3.subperm hf)
  cases h4.symm.trans h5
  exact ⟨out, h6, hC.perm _ _ _ h3 h7⟩

theorem Hereditary.asOps {X : (V : Type) × StatValue V} (hD : X = ⟨V, D⟩) (h : Hereditary Fits) :
    Hereditary fun L : List (StatOp X.2) => Fits (BSQ.asOps hD L) := by
  cases hD; exact h

variable (hC : ClosedForm D okOp Fits Value) {good : StatInst E → Prop} (n : Nat) (q : QualifierQuery Q)
  (s : StatInst E) (hD : s.Is D) (v : s.Val) (L : List (StatOp s.sv))
  (Cs : List (Prog E Q Ent (List (StatOp s.sv)))) (hs : Storable (E.layout s.ty))
  (hv : J.world.startValue A s = .ok (.val s.ty v)) (hL : Assembles s.sv (fun o => okOp (asOp hD o)) v L)
  (opss : List (List (StatOp s.sv)))
  (ho : List.Forall₂ (fun C ops => Prog.eval (J.answer A n) C = .ok ops) Cs opss)
include hC hs hv hL ho

/-- C112: a query whose sources can compute what they contribute returns, and evaluates to the closed form of all of
it: the operations of the start value, and those of every source. -/
theorem C112_query (e : Ent) (he : J.world.isStat e = true)
    (h : Supplied J A good s (fun o => okOp (asOp hD o)) (fun L => Fits (asOps hD L)) L (J.statCalls e q) Cs) :
    ∃ v' out, J.answer A (n + 1) (.stat e q s) = .ok (some v') ∧ s.sv.eval v' = .ok out ∧
      Value (asOps hD (L ++ opss.flatten)) (asOut hD out) := by
  obtain ⟨v', h1, h2⟩ := (C44_returns_iff n e q s _ _ (hC.hereditary.asOps hD) v L Cs hs he hv hL h).2 opss ho
  obtain ⟨out, h3, h4⟩ := hC.assembled hD h2 (h.fits n opss ho)
  exact ⟨v', out, h1, h3, h4⟩

/-- C112 for relation queries -/
theorem C112_relation (a b : Ent) (ha : J.world.isStat a = true) (hb : J.world.isStat b = true)
    (h : Supplied J A good s (fun o => okOp (asOp hD o)) (fun L => Fits (asOps hD L)) L
      (J.relationCalls a b q) Cs) :
    ∃ v' out, J.answer A (n + 1) (.relation a b q s) = .ok (some v') ∧ s.sv.eval v' = .ok out ∧
      Value (asOps hD (L ++ opss.flatten)) (asOut hD out) := by
  obtain ⟨v', h1, h2⟩ := runCalls_returns (hC.hereditary.asOps hD) (h.calls.imp fun _ _ h => ⟨h.1, h.2.1⟩) ho hL
    (h.fits n opss ho)
  obtain ⟨out, h3, h4⟩ := hC.assembled hD h2 (h.fits n opss ho)
  refine ⟨v', out, ?_, h3, h4⟩
  rw [J.answer_succ]
  simp only [Joined.ideal, validate_eq, hs, if_true, ha, hb, Bool.and_self, Res.bind_ok, hv, h1]
  rw [Buf.read_val hs]
  rfl

/-- C112 with a cache: the closed form is returned after any queries and clears as well, whatever they left in the
cache, provided only right results are stored -/
theorem C112_query_cached [DecidableEq Q] [DecidableEq Ent] (hR : J.Right A) (evs : List (Event E Q Ent))
    (hq : ∀ ev ∈ evs, ev.isQuery = true ∨ ev = .clear) (e : Ent) (he : J.world.isStat e = true)
    (h : Supplied J A good s (fun o => okOp (asOp hD o)) (fun L => Fits (asOps hD L)) L (J.statCalls e q) Cs) :
    ∃ v' out, ((J.handle A (n + 1) (.stat e q s)).run A (history A J [] evs).2).1 = .ok (some v') ∧
      s.sv.eval v' = .ok out ∧ Value (asOps hD (L ++ opss.flatten)) (asOut hD out) := by
  obtain ⟨v', out, h1, h2, h3⟩ := C112_query hC n q s hD v L Cs hs hv hL opss ho e he h
  refine ⟨v', out, ?_, h2, h3⟩
  rw [(C51_agreeing_partial J J hR hR (fun _ _ _ _ n h => ⟨n, h⟩) evs hq (n + 1) (.stat e q s)).1
    (by rw [h1]; simp), h1]
end

/-! ### a concrete case: every shipped type, operations applied by streams -/

theorem ClosedForm.returns {V : Type} {D : StatValue V} {okOp : StatOp D → Prop} {Fits : List (StatOp D) → Prop}
    {Value : List (StatOp D) → D.Out → Prop} (hC : ClosedForm D okOp Fits Value) : Returns D okOp Fits := by
  intro t h1 h2 h3
  obtain ⟨v, -, hv, -⟩ := hC.eval t h1 h2 h3
  exact ⟨v, hv⟩

/-- user code: `if let Some((_, v)) = pair.cast::<…>() { v.add(…) }` and so on -/
def soloOp {V : Type} {D : StatValue V} (o : StatOp D) : Call (solo D) (BitVec 8) Nat := fun p => Prog.lift do
  let x ← p.cast (soloAddr D) ()
  match x with
  | some (_, v) => do
    let v' ← o.writeTo v
    .ok (p.write () v')
  | none => .ok p

/-- global streams that apply the operations `os` to everything, and one that does so between any two entities -/
def soloOps {V : Type} {D : StatValue V} (os os' : List (StatOp D)) : Joined (solo D) (BitVec 8) Nat :=
  os'.foldl (fun J o => J.withRelation { Item := Unit, query := fun _ => some (), relation := fun _ _ _ => soloOp o })
    { world := { isStat := fun _ => true, children := fun _ => none, defaults := none,
                 relations := some (os.map fun o _ _ => soloOp o), cached := true, placeholder := 99 }
      comp := .unit, child := .unit, rel := .unit }

section
variable {V : Type} {D : StatValue V} {okOp : StatOp D → Prop} {Fits : List (StatOp D) → Prop}
  {Value : List (StatOp D) → D.Out → Prop}

theorem soloOps_world (os os' : List (StatOp D)) : (soloOps os os').world = (soloOps os []).world := by
  unfold soloOps
  generalize hJ : ({ world := _, comp := _, child := _, rel := _ } : Joined (solo D) (BitVec 8) Nat) = J
  clear hJ
  induction os' generalizing J with
  | nil => rfl
  | cons o os' ih => rw [List.foldl_cons, ih]; rfl

theorem soloOps_calls (os os' : List (StatOp D)) (a b : Nat) (q : QualifierQuery (BitVec 8)) :
    (soloOps os os').relationCalls a b q = (os ++ os').map soloOp := by
  have key : ∀ J : Joined (solo D) (BitVec 8) Nat, (os'.foldl (fun J o => J.withRelation
      { Item := Unit, query := fun _ => some (), relation := fun _ _ _ => soloOp o }) J).relationCalls a b q =
      J.relationCalls a b q ++ os'.map soloOp := by
    induction os' with
    | nil => simp
    | cons o os' ih =>
      intro J
      rw [List.foldl_cons, ih]
      simp only [Joined.relationCalls, Joined.withRelation, Streams.leaves, List.flatMap_append, List.flatMap_cons,
        List.flatMap_nil, List.append_nil, List.map_cons, List.append_assoc]
      rfl
  unfold soloOps
  rw [key]
  simp [Joined.relationCalls, Streams.leaves]

theorem soloOp_reliable (hC : ClosedForm D okOp Fits Value) (o : StatOp D) (hb : ¬ o.IsBase) (ho : okOp o) :
    Call.Contributes (soloStat D) okOp (soloOp o) (.ret [o]) ∧
    Call.Reliable (soloStat D) okOp Fits (soloOp o) (.ret [o]) :=
  Call.Reliable.op (s := soloStat D) hC.returns hC.hereditary hb ho fun x v => by
    change (Prog.lift (o.writeTo v >>= fun v' => .ok (Pair.write ⟨soloStat D, .val () v⟩ () v'))).eval x = _
    cases o.writeTo v <;> rfl

theorem soloOps_supplied (hC : ClosedForm D okOp Fits Value) (J : Joined (solo D) (BitVec 8) Nat)
    (os : List (StatOp D)) (hb : ∀ o ∈ os, ¬ o.IsBase) (hok : ∀ o ∈ os, okOp o) (hf : Fits os) :
    Supplied J (soloAddr D) (fun _ => True) (soloStat D) okOp Fits [] (os.map soloOp) (os.map fun o => .ret [o]) where
  calls := by
    clear hf
    induction os with
    | nil => exact .nil
    | cons o os ih =>
      obtain ⟨h1, h2⟩ := soloOp_reliable hC o (hb o (by simp)) (hok o (by simp))
      exact .cons ⟨h1, h2, trivial⟩ (ih (fun o h => hb o (by simp [h])) fun o h => hok o (by simp [h]))
  fits n opss ho := by
    have : opss.flatten = os := by
      clear hf hb hok
      induction os generalizing opss with
      | nil => cases ho; rfl
      | cons k ks ih =>
        cases ho with
        | cons h ho =>
          cases h
          rw [List.flatten_cons, ih _ ho]
          rfl
    rw [this]
    exact hf

/-- C112: the hypotheses are met by every type with a closed form, and any fitting operations applied by global
streams and relation streams -/
theorem C112_satisfiable (hC : ClosedForm D okOp Fits Value) (os os' : List (StatOp D))
    (hb : ∀ o ∈ os ++ os', ¬ o.IsBase) (hok : ∀ o ∈ os ++ os', okOp o) (hf : Fits (os ++ os')) (a b n : Nat) :
    ∃ v out, (soloOps os os').answer (soloAddr D) (n + 1) (.relation a b demoQ (soloStat D)) = .ok (some v) ∧
      D.eval v = .ok out ∧ Value (os ++ os') out := by
  have hst : ∀ e, (soloOps os os').world.isStat e = true := fun e => by rw [soloOps_world]; rfl
  obtain ⟨v, out, h1, h2, h3⟩ := C112_relation (good := fun _ => True) (A := soloAddr D) (J := soloOps os os') hC n demoQ
    (soloStat D) rfl D.default []
    ((os ++ os').map fun o => .ret [o]) (show Storable ⟨16, 8⟩ by decide)
    (by rw [World.startValue, World.registered, soloOps_world]; rfl)
    ⟨.dflt, trivial, by simp [Tree.leaves], .refl _, rfl⟩ ((os ++ os').map fun o => [o])
    (by
      clear hb hok hf
      induction os ++ os' with
      | nil => exact .nil
      | cons o l ih => exact .cons rfl ih) a b (hst a) (hst b) (by
      rw [soloOps_calls]
      exact soloOps_supplied hC _ _ hb hok hf)
  refine ⟨v, out, h1, h2, ?_⟩
  have e : ((os ++ os').map fun o => [o]).flatten = os ++ os' := by
    rw [← List.flatMap_def]; exact List.flatMap_singleton' _
  rw [List.nil_append, e] at h3
  exact h3

/-- flags 1 and 2 set by one stream, flag 2 cleared by another, read off a relation query -/
example (a b n : Nat) : let D := statFlags (BitVec 8)
    ∃ v out, (soloOps (D := D) [.or (3 : BitVec 8)] [.not (2 : BitVec 8)]).answer (soloAddr D) (n + 1)
      (.relation a b demoQ (soloStat D)) = .ok (some v) ∧ D.eval v = .ok out ∧
      ∀ f : Fin 8, (out : BitVec 8)[f.val] = true ↔ f = 0 := by
  intro D
  obtain ⟨v, out, h1, h2, h3⟩ := C112_satisfiable (C112_closed_flags (BitVec 8)) [.or (3 : BitVec 8)]
    [.not (2 : BitVec 8)] (by simp [StatOp.IsBase]) (by simp) trivial a b n
  refine ⟨v, out, h1, h2, fun f => (h3 f).trans ?_⟩
  simp only [List.cons_append, List.nil_append, List.mem_cons, List.not_mem_nil, or_false, exists_eq_or_imp,
    exists_eq_left, StatOp.Sets, StatOp.Clears, false_or]
  revert f
  change ∀ f : Fin 8, (3 : BitVec 8)[f.val] = true ∧ ¬ (2 : BitVec 8)[f.val] = true ↔ f = 0
  decide
end

end BSQ
