import Verif.Spec.Assembled
import Verif.Props.MapQuery
import Verif.Props.Returns
import Verif.Props.RoundOff
import Verif.Props.JoinReturns
/-!
# C111: modifiers assembled from operations, end to end
-/
namespace BSQ
open Contrib
set_option linter.unusedSectionVars false
variable {E : Env} {Q Ent : Type} [BitFlags Q] [FlagSet Q] [Ord Q] [Std.TransOrd Q] [Std.LawfulEqOrd Q]
  {A : Addr E} {J : Joined E Q Ent} {own items : List (MapComp (Q := Q) A Ent)}

section
variable {V : Type} {D : StatValue V}

theorem Tree.foldl_join_leaves (ts : List (Tree D)) (t₀ : Tree D) :
    (ts.foldl Tree.join t₀).leaves = t₀.leaves ++ ts.flatMap Tree.leaves := by
  induction ts generalizing t₀ with
  | nil => simp
  | cons t ts ih => rw [List.foldl_cons, ih, List.flatMap_cons, Tree.leaves, List.append_assoc]

theorem Tree.foldl_join_noReset (ts : List (Tree D)) (t₀ : Tree D) (h₀ : t₀.NoReset) (h : ∀ t ∈ ts, t.NoReset) :
    (ts.foldl Tree.join t₀).NoReset := by
  induction ts generalizing t₀ with
  | nil => exact h₀
  | cons t ts ih => exact ih _ ⟨h₀, h t (by simp)⟩ fun t' ht => h t' (by simp [ht])

theorem Tree.foldl_join_error (ts : List (Tree D)) (t₀ : Tree D) (x : Err) (h₀ : t₀.run = .error x) :
    (ts.foldl Tree.join t₀).run = .error x := by
  induction ts generalizing t₀ with
  | nil => exact h₀
  | cons t ts ih => exact ih _ (by rw [Tree.run, h₀]; rfl)

theorem Tree.foldl_join_run {B : Type} (g : B → V) (bs : List B) (ts : List (Tree D)) (t₀ : Tree D) (v : V)
    (h₀ : t₀.run = .ok v) (h : List.Forall₂ (fun b t => Tree.NoReset t ∧ t.run = .ok (g b)) bs ts) :
    (ts.foldl Tree.join t₀).run = joinList D v (bs.map g) := by
  induction h generalizing t₀ v with
  | nil => exact h₀
  | @cons b t bs ts hb _ ih =>
    rw [List.foldl_cons, List.map_cons, joinList]
    have hr : (Tree.join t₀ t).run = D.join v (g b) := by rw [Tree.run, h₀, hb.2]; rfl
    cases hj : D.join v (g b) with
    | error x => exact Tree.foldl_join_error ts _ x (hr.trans hj)
    | ok w => exact ih _ w (hr.trans hj)
end

/-- C111, for every value type: whatever is true of every way of putting the operations together is true of the
answer to the query, which put them together in one way. -/
theorem C111_exact (h : OnlyMaps J own items) (e : Ent) (q : QualifierQuery Q) (s : StatInst E)
    (hs : Storable (E.layout s.ty)) (he : J.world.isStat e = true) {V : Type} {D : StatValue V} (hD : s.Is D)
    (L : List (StatOp D)) (hL : AssembledFrom J own items e q s hD L) :
    ∃ t : Tree D, t.NoReset ∧ t.leaves.Perm L ∧ ∀ v out, t.run = .ok v → D.eval v = .ok out →
      ∃ (w : s.Val) (out' : s.sv.Out), (∀ n, J.answer A (n + 1) (.stat e q s) = .ok (some w)) ∧
        s.sv.eval w = .ok out' ∧ asOut hD out' = out := by
  obtain ⟨v, Ls, t₀, ts, hv, hLs, hr₀, ht₀, hts, rfl⟩ := hL
  obtain ⟨Ls', h1, -, h2⟩ := C86_exact h e q s hs he v hv
  obtain ⟨ts', h4, h3⟩ := forall₂_perm (listed_perm hLs h1) hts
  have hm : (Ls'.flatten.map fun x => asVal hD x.2) = (Ls'.flatten.map (·.2)).map (asVal hD) := by
    rw [List.map_map]; rfl
  refine ⟨ts'.foldl Tree.join t₀, Tree.foldl_join_noReset _ _ hr₀ ?_, ?_, ?_⟩
  · intro t ht
    obtain ⟨i, hi, rfl⟩ := List.getElem_of_mem ht
    exact (List.Forall₂.get h4 (by rw [h4.length_eq]; exact hi) hi).1
  · rw [Tree.foldl_join_leaves]
    exact (h3.symm.flatMap_right _).append_left _
  · intro w out hw ho
    rw [Tree.foldl_join_run (fun x : Qualifier Q × s.Val => asVal hD x.2) _ _ _ _ ht₀ h4, hm] at hw
    obtain ⟨w', out', h5, h6, h7⟩ := joinList_as hD v (Ls'.flatten.map (·.2)) w out hw ho
    refine ⟨w', out', fun n => ?_, h6, h7⟩
    rw [h2 n]
    have h5 : joinList s.sv v (Ls'.flatten.map (·.2)) = .ok w' := h5
    rw [h5]; rfl

/-- what holds of every order holds of the answer -/
theorem AssembledFrom.closed (h : OnlyMaps J own items) {e : Ent} {q : QualifierQuery Q} {s : StatInst E}
    (hs : Storable (E.layout s.ty)) (he : J.world.isStat e = true) {V : Type} {D : StatValue V} {hD : s.Is D}
    {L : List (StatOp D)} (hL : AssembledFrom J own items e q s hD L) {P : D.Out → Prop}
    (hP : ∀ t : Tree D, t.NoReset → t.leaves.Perm L → ∃ v out, t.run = .ok v ∧ D.eval v = .ok out ∧ P out) :
    ∃ w out, (∀ n, J.answer A (n + 1) (.stat e q s) = .ok (some w)) ∧ s.sv.eval w = .ok out ∧ P (asOut hD out) := by
  obtain ⟨t, h1, h2, h3⟩ := C111_exact h e q s hs he hD L hL
  obtain ⟨v, out, h4, h5, h6⟩ := hP t h1 h2
  obtain ⟨w, out', h7, h8, h9⟩ := h3 v out h4 h5
  exact ⟨w, out', h7, h8, by rw [h9]; exact h6⟩

/-! ### the shipped types -/

theorem absSum_perm_int {l k : List ℤ} (h : l.Perm k) : absSum l = absSum k := (h.map _).sum_eq
theorem numSize_perm {l k : List ℚ} (h : l.Perm k) : numSize l = numSize k := (h.map _).prod_eq
theorem denSize_perm {l k : List ℚ} (h : l.Perm k) : denSize l = denSize k := (h.map _).prod_eq

section
variable (h : OnlyMaps J own items) (e : Ent) (q : QualifierQuery Q) (s : StatInst E)
  (hs : Storable (E.layout s.ty)) (he : J.world.isStat e = true)
include h hs he

/-- C111 for `StatInt` -/
theorem C111_int (t : NumTy) (ht : t.ovf = .panic) (hD : s.Is (statInt t)) (L : List (StatOp (statInt t)))
    (hL : AssembledFrom J own items e q s hD L) (hok : ∀ o ∈ L, t.prim.InRange (statInt.contrib o).num) :
    let C := L.map statInt.contrib
    absTotal C ≤ t.prim.hi → absProduct C ≤ t.prim.hi → absTotal C * absProduct C ≤ t.prim.hi →
    ∃ w out, (∀ n, J.answer A (n + 1) (.stat e q s) = .ok (some w)) ∧ s.sv.eval w = .ok out ∧
      asOut hD out = clampTo (total C * product C) (floorOf t.prim.lo C) (capOf t.prim.hi C) := by
  intro C h1 h2 h3
  refine hL.closed h hs he (P := fun out => out = _) fun tr hr hp => ?_
  have hp' : (tr.leaves.map statInt.contrib).Perm C := hp.map _
  obtain ⟨v, hv, ho⟩ := C16_no_overflow t ht tr hr (fun o ho => hok o (hp.mem_iff.1 ho))
    (by rw [absTotal_perm hp']; exact h1) (by rw [absProduct_perm hp']; exact h2)
    (by rw [absTotal_perm hp', absProduct_perm hp']; exact h3)
  refine ⟨v, _, hv, ho, ?_⟩
  rw [total_perm hp', product_perm hp', floorOf_perm _ hp', capOf_perm _ hp']

/-- C111 for `StatInt` in release builds and over `Wrapping`: the product wraps around -/
theorem C111_int_wrapping (t : NumTy) (ht : t.ovf = .wrap) (hb : 1 < t.prim.bits) (hD : s.Is (statInt t))
    (L : List (StatOp (statInt t))) (hL : AssembledFrom J own items e q s hD L)
    (hok : ∀ o ∈ L, t.prim.InRange (statInt.contrib o).num) :
    let C := L.map statInt.contrib
    ∃ w out, (∀ n, J.answer A (n + 1) (.stat e q s) = .ok (some w)) ∧ s.sv.eval w = .ok out ∧
      asOut hD out = clampTo (t.prim.wrap (total C * product C)) (floorOf t.prim.lo C) (capOf t.prim.hi C) := by
  intro C
  refine hL.closed h hs he (P := fun out => out = _) fun tr hr hp => ?_
  have hp' : (tr.leaves.map statInt.contrib).Perm C := hp.map _
  obtain ⟨v, hv, ho⟩ := C16_closed_form_wrapping t ht hb tr hr (fun o ho => hok o (hp.mem_iff.1 ho))
  refine ⟨v, _, hv, ho, ?_⟩
  rw [total_perm hp', product_perm hp', floorOf_perm _ hp', capOf_perm _ hp']

/-- C111 for `StatIntPercentAdditive` -/
theorem C111_percent_additive (t : NumTy) (ht : t.ovf = .panic) (hb : 1 < t.prim.bits)
    (hw : t.prim.bits ≤ 63 ∨ (t.prim.bits = 64 ∧ t.prim.signed = true)) (R : Rounding) (S : Int)
    (hS : t.prim.InRange S) (hS0 : S ≠ 0) (hD : s.Is (statIntPercentAdditive t R S))
    (L : List (StatOp (statIntPercentAdditive t R S))) (hL : AssembledFrom J own items e q s hD L)
    (hok : ∀ o ∈ L, statIntPercentAdditive.okOp o) :
    let C := L.map statIntPercentAdditive.contrib
    absSum (addends C) ≤ t.prim.hi → |S| + absSum (mults C) ≤ t.prim.hi →
    absSum (addends C) * (|S| + absSum (mults C)) + |S| ≤ t.prim.hi →
    ∃ w out z, (∀ n, J.answer A (n + 1) (.stat e q s) = .ok (some w)) ∧ s.sv.eval w = .ok out ∧
      Rounds R (((total C : ℤ) : ℚ) * ((S : ℚ) + ((multSum C : ℤ) : ℚ)) / (S : ℚ)) z ∧
      asOut hD out = clampTo z (floorOf t.prim.lo C) (capOf t.prim.hi C) := by
  intro C h1 h2 h3
  obtain ⟨w, out, h4, h5, z, h6⟩ := hL.closed h hs he (P := fun out => ∃ z,
    Rounds R (((total C : ℤ) : ℚ) * ((S : ℚ) + ((multSum C : ℤ) : ℚ)) / (S : ℚ)) z ∧
      out = clampTo z (floorOf t.prim.lo C) (capOf t.prim.hi C)) fun tr hr hp => by
    have hp' : (tr.leaves.map statIntPercentAdditive.contrib).Perm C := hp.map _
    have pa := addends_perm hp'
    have pm := mults_perm hp'
    have key := C20_no_overflow t ht hb hw R S hS hS0 tr hr (fun o ho => hok o (hp.mem_iff.1 ho))
    simp only [absSum_perm_int pa, absSum_perm_int pm, total_perm hp', multSum_perm hp', floorOf_perm _ hp',
      capOf_perm _ hp'] at key
    obtain ⟨v, z, hv, hz, ho⟩ := key h1 h2 h3
    exact ⟨v, _, hv, ho, z, hz, rfl⟩
  exact ⟨w, out, z, h4, h5, h6⟩

/-- C111 for `StatIntFraction` -/
theorem C111_fraction (t : NumTy) (ht : t.ovf = .panic) (hb : 1 < t.prim.bits) (R : Rounding)
    (hD : s.Is (statIntFraction t R)) (L : List (StatOp (statIntFraction t R)))
    (hL : AssembledFrom J own items e q s hD L) (hok : ∀ o ∈ L, statIntFraction.okOp o) :
    let C := L.map statIntFraction.contrib
    absSum (addends C) ≤ t.prim.hi → numSize (mults C) ≤ t.prim.hi →
    numSize (mults C) * absSum (addends C) + denSize (mults C) ≤ t.prim.hi →
    ∃ w out z, (∀ n, J.answer A (n + 1) (.stat e q s) = .ok (some w)) ∧ s.sv.eval w = .ok out ∧
      Rounds R (((total C : ℤ) : ℚ) * product C) z ∧
      asOut hD out = clampTo z (floorOf t.prim.lo C) (capOf t.prim.hi C) := by
  intro C h1 h2 h3
  obtain ⟨w, out, h4, h5, z, h6⟩ := hL.closed h hs he (P := fun out => ∃ z,
    Rounds R (((total C : ℤ) : ℚ) * product C) z ∧
      out = clampTo z (floorOf t.prim.lo C) (capOf t.prim.hi C)) fun tr hr hp => by
    have hp' : (tr.leaves.map statIntFraction.contrib).Perm C := hp.map _
    have pa := addends_perm hp'
    have pm := mults_perm hp'
    have key := C21_no_overflow t ht hb R tr hr (fun o ho => hok o (hp.mem_iff.1 ho))
    simp only [absSum_perm_int pa, numSize_perm pm, denSize_perm pm, total_perm hp', product_perm hp',
      floorOf_perm _ hp', capOf_perm _ hp'] at key
    obtain ⟨v, z, hv, hz, ho⟩ := key h1 h2 h3
    exact ⟨v, _, hv, ho, z, hz, rfl⟩
  exact ⟨w, out, z, h4, h5, h6⟩

/-- C111 for `StatFloat<Fraction>` -/
theorem C111_float_frac (t : NumTy) (ht : t.ovf = .panic) (hb : 1 < t.prim.bits)
    (hD : s.Is (statFloat (Frac.ops t))) (L : List (StatOp (statFloat (Frac.ops t))))
    (hL : AssembledFrom J own items e q s hD L) (hok : ∀ o ∈ L, statFloat.okOp o) :
    let C := L.map statFloat.fracContrib
    SumFits t (addends C) → ProdFits t (mults C) →
    absSum (addends C) * denSize (addends C) * numSize (mults C) ≤ t.prim.hi →
    denSize (addends C) * denSize (mults C) ≤ t.prim.hi →
    ∃ w out, (∀ n, J.answer A (n + 1) (.stat e q s) = .ok (some w)) ∧ s.sv.eval w = .ok out ∧
      (asOut hD out : Frac).toRat =
        clampTo (total C * product C) (floorOf (t.prim.lo : ℚ) C) (capOf (t.prim.hi : ℚ) C) := by
  intro C h1 h2 h3 h4
  refine hL.closed h hs he (P := fun out : Frac => out.toRat = _) fun tr hr hp => ?_
  have hp' : (tr.leaves.map statFloat.fracContrib).Perm C := hp.map _
  have pa := addends_perm hp'
  have pm := mults_perm hp'
  have key := C22_no_overflow_float t ht hb tr hr (fun o ho => hok o (hp.mem_iff.1 ho))
  simp only [SumFits, ProdFits, absSum_perm pa, numSize_perm pm, denSize_perm pa, denSize_perm pm, total_perm hp',
    product_perm hp', floorOf_perm _ hp', capOf_perm _ hp'] at key
  exact key h1 h2 h3 h4

/-- C111 for `StatFloatAdditive<Fraction>` -/
theorem C111_additive_frac (t : NumTy) (ht : t.ovf = .panic) (hb : 1 < t.prim.bits)
    (hD : s.Is (statFloatAdditive (Frac.ops t))) (L : List (StatOp (statFloatAdditive (Frac.ops t))))
    (hL : AssembledFrom J own items e q s hD L) (hok : ∀ o ∈ L, statFloatAdditive.okOp o) :
    let C := L.map statFloatAdditive.fracContrib
    SumFits t (addends C) → SumFits t (mults C ++ [1]) →
    absSum (addends C) * denSize (addends C) * (absSum (mults C ++ [1]) * denSize (mults C)) ≤ t.prim.hi →
    denSize (addends C) * denSize (mults C) ≤ t.prim.hi →
    ∃ w out, (∀ n, J.answer A (n + 1) (.stat e q s) = .ok (some w)) ∧ s.sv.eval w = .ok out ∧
      (asOut hD out : Frac).toRat =
        clampTo (total C * (1 + multSum C)) (floorOf (t.prim.lo : ℚ) C) (capOf (t.prim.hi : ℚ) C) := by
  intro C h1 h2 h3 h4
  refine hL.closed h hs he (P := fun out : Frac => out.toRat = _) fun tr hr hp => ?_
  have hp' : (tr.leaves.map statFloatAdditive.fracContrib).Perm C := hp.map _
  have pa := addends_perm hp'
  have pm := mults_perm hp'
  have key := C22_no_overflow_additive t ht hb tr hr (fun o ho => hok o (hp.mem_iff.1 ho))
  simp only [SumFits, absSum_perm pa, absSum_perm (pm.append_right [1]), denSize_perm pa, denSize_perm pm,
    denSize_perm (pm.append_right [1]), total_perm hp', multSum_perm hp', floorOf_perm _ hp', capOf_perm _ hp'] at key
  exact key h1 h2 h3 h4

/-- C111 for `StatMult<Fraction>` -/
theorem C111_mult_frac (t : NumTy) (ht : t.ovf = .panic) (hb : 1 < t.prim.bits)
    (hD : s.Is (statMult (Frac.ops t))) (L : List (StatOp (statMult (Frac.ops t))))
    (hL : AssembledFrom J own items e q s hD L) (hok : ∀ o ∈ L, statMult.okOp o) :
    let C := L.map statMult.fracContrib
    ProdFits t (mults C) →
    ∃ w out, (∀ n, J.answer A (n + 1) (.stat e q s) = .ok (some w)) ∧ s.sv.eval w = .ok out ∧
      (asOut hD out : Frac).toRat = clampTo (product C) (floorOf (t.prim.lo : ℚ) C) (capOf (t.prim.hi : ℚ) C) := by
  intro C h1
  refine hL.closed h hs he (P := fun out : Frac => out.toRat = _) fun tr hr hp => ?_
  have hp' : (tr.leaves.map statMult.fracContrib).Perm C := hp.map _
  have pm := mults_perm hp'
  have key := C22_no_overflow_mult t ht hb tr hr (fun o ho => hok o (hp.mem_iff.1 ho))
  simp only [ProdFits, numSize_perm pm, denSize_perm pm, product_perm hp', floorOf_perm _ hp',
    capOf_perm _ hp'] at key
  exact key h1

/-- C111 for `StatFloat` over `f32` and `f64`: up to the accumulated rounding error -/
theorem C111_float (f : Fmt) (hf : f.Normal) (hD : s.Is (statFloat (Fl.ops f)))
    (L : List (StatOp (statFloat (Fl.ops f)))) (hL : AssembledFrom J own items e q s hD L)
    (hok : ∀ o ∈ L, statFloat.Num f o) :
    let C := L.map statFloat.qContrib
    let size := absSum (addends C) * |product C|
    let n := (addends C).length + (mults C).length
    SumsFit f (addends C) → ProductsFit f (mults C) → f.growth n * size ≤ f.maxVal →
    ∃ w out x, (∀ n, J.answer A (n + 1) (.stat e q s) = .ok (some w)) ∧ s.sv.eval w = .ok out ∧
      asOut hD out = Fl.fin x ∧
      |x - clampTo (total C * product C) (floorOf (-f.maxVal) C) (capOf f.maxVal C)| ≤
        (f.growth n - 1) * size + f.tiny := by
  intro C size n h1 h2 h3
  obtain ⟨w, out, h4, h5, x, h6⟩ := hL.closed h hs he (P := fun out : Fl => ∃ x, out = .fin x ∧
      |x - clampTo (total C * product C) (floorOf (-f.maxVal) C) (capOf f.maxVal C)| ≤
        (f.growth n - 1) * size + f.tiny) fun tr hr hp => by
    have hp' : (tr.leaves.map statFloat.qContrib).Perm C := hp.map _
    have pa := addends_perm hp'
    have pm := mults_perm hp'
    have key := C84_float f hf tr hr (fun o ho => hok o (hp.mem_iff.1 ho))
    simp only [absSum_perm pa, product_perm hp', pa.length_eq, pm.length_eq, total_perm hp',
      floorOf_perm _ hp', capOf_perm _ hp'] at key
    obtain ⟨v, x, hv, hx, hb⟩ := key (h1.perm pa.symm) (h2.perm pm.symm) h3
    exact ⟨v, _, hv, hx, x, rfl, hb⟩
  exact ⟨w, out, x, h4, h5, h6⟩

/-- C111 for `StatFloatAdditive` over `f32` and `f64` -/
theorem C111_additive (f : Fmt) (hf : f.Normal) (hD : s.Is (statFloatAdditive (Fl.ops f)))
    (L : List (StatOp (statFloatAdditive (Fl.ops f)))) (hL : AssembledFrom J own items e q s hD L)
    (hok : ∀ o ∈ L, statFloatAdditive.Num f o) :
    let C := L.map statFloatAdditive.qContrib
    let size := absSum (addends C) * (absSum (mults C) + 1)
    let n := (addends C).length + (mults C).length + 1
    SumsFit f (addends C) → SumsFit f (mults C ++ [1]) → f.growth n * size ≤ f.maxVal →
    ∃ w out x, (∀ n, J.answer A (n + 1) (.stat e q s) = .ok (some w)) ∧ s.sv.eval w = .ok out ∧
      asOut hD out = Fl.fin x ∧
      |x - clampTo (total C * (multSum C + 1)) (floorOf (-f.maxVal) C) (capOf f.maxVal C)| ≤
        (f.growth n - 1) * size + f.tiny := by
  intro C size n h1 h2 h3
  obtain ⟨w, out, h4, h5, x, h6⟩ := hL.closed h hs he (P := fun out : Fl => ∃ x, out = .fin x ∧
      |x - clampTo (total C * (multSum C + 1)) (floorOf (-f.maxVal) C) (capOf f.maxVal C)| ≤
        (f.growth n - 1) * size + f.tiny) fun tr hr hp => by
    have hp' : (tr.leaves.map statFloatAdditive.qContrib).Perm C := hp.map _
    have pa := addends_perm hp'
    have pm := mults_perm hp'
    have key := C84_additive f hf tr hr (fun o ho => hok o (hp.mem_iff.1 ho))
    simp only [absSum_perm pa, absSum_perm pm, multSum_perm hp', pa.length_eq, pm.length_eq, total_perm hp',
      floorOf_perm _ hp', capOf_perm _ hp'] at key
    obtain ⟨v, x, hv, hx, hb⟩ := key (h1.perm pa.symm) (h2.perm (pm.symm.append_right _)) h3
    exact ⟨v, _, hv, hx, x, rfl, hb⟩
  exact ⟨w, out, x, h4, h5, h6⟩

/-- C111 for `StatMult` over `f32` and `f64` -/
theorem C111_mult (f : Fmt) (hf : f.Normal) (hD : s.Is (statMult (Fl.ops f)))
    (L : List (StatOp (statMult (Fl.ops f)))) (hL : AssembledFrom J own items e q s hD L)
    (hok : ∀ o ∈ L, statMult.Num f o) :
    let C := L.map statMult.qContrib
    ProductsFit f (mults C) →
    ∃ w out x, (∀ n, J.answer A (n + 1) (.stat e q s) = .ok (some w)) ∧ s.sv.eval w = .ok out ∧
      asOut hD out = Fl.fin x ∧
      |x - clampTo (product C) (floorOf (-f.maxVal) C) (capOf f.maxVal C)| ≤
        (f.growth ((mults C).length - 1) - 1) * |product C| := by
  intro C h1
  obtain ⟨w, out, h4, h5, x, h6⟩ := hL.closed h hs he (P := fun out : Fl => ∃ x, out = .fin x ∧
      |x - clampTo (product C) (floorOf (-f.maxVal) C) (capOf f.maxVal C)| ≤
        (f.growth ((mults C).length - 1) - 1) * |product C|) fun tr hr hp => by
    have hp' : (tr.leaves.map statMult.qContrib).Perm C := hp.map _
    have pm := mults_perm hp'
    have key := C84_mult f hf tr hr (fun o ho => hok o (hp.mem_iff.1 ho))
    simp only [product_perm hp', pm.length_eq, floorOf_perm _ hp', capOf_perm _ hp'] at key
    obtain ⟨v, x, hv, hx, hb⟩ := key (h1.perm pm.symm)
    exact ⟨v, _, hv, hx, x, rfl, hb⟩
  exact ⟨w, out, x, h4, h5, h6⟩

/-- C111 for `StatIntFloatMul`: up to the rounding error of the multipliers, and one for the final rounding -/
theorem C111_int_float_mul (t : NumTy) (ht : t.ovf = .panic) (f : Fmt) (hf : f.Normal) (R : Rounding)
    (hD : s.Is (statIntFl t f R)) (L : List (StatOp (statIntFl t f R))) (hL : AssembledFrom J own items e q s hD L)
    (hok : ∀ o ∈ L, statIntFloatMul.Num f o) :
    let C := L.map statIntFloatMul.contrib
    let T : ℚ := (total C : ℤ)
    let n := (mults C).length + 2
    absSum (addends C) ≤ t.prim.hi → ProductsFit f (mults C) → |T| ≤ f.maxVal →
    f.growth n * (|T| * |product C|) ≤ f.maxVal →
    ∃ w out, (∀ n, J.answer A (n + 1) (.stat e q s) = .ok (some w)) ∧ s.sv.eval w = .ok out ∧
      |((asOut hD out : ℤ) : ℚ) - clampTo (T * product C) (floorOf t.prim.lo C : ℤ) (capOf t.prim.hi C : ℤ)| ≤
        (f.growth n - 1) * (|T| * |product C|) + f.tiny + 1 := by
  intro C T n h1 h2 h3 h4
  refine hL.closed h hs he (P := fun out : ℤ =>
    |(out : ℚ) - clampTo (T * product C) (floorOf t.prim.lo C : ℤ) (capOf t.prim.hi C : ℤ)| ≤
        (f.growth n - 1) * (|T| * |product C|) + f.tiny + 1) fun tr hr hp => ?_
  have hp' : (tr.leaves.map statIntFloatMul.contrib).Perm C := hp.map _
  have pa := addends_perm hp'
  have pm := mults_perm hp'
  have key := C84_int_float_mul t ht f hf R tr hr (fun o ho => hok o (hp.mem_iff.1 ho))
  simp only [absSum_perm_int pa, product_perm hp', pm.length_eq, total_perm hp', floorOf_perm _ hp',
    capOf_perm _ hp'] at key
  exact key h1 (h2.perm pm.symm) h3 h4
end

/-! ### from the calls that filled the maps -/

/-- a map and a journal of it: the same qualifiers, and values assembled from what is written down -/
def Journal.Of {s : StatInst E} (j : Journal Q s) (m : PMap E Q) : Prop :=
  ∀ k, Option.Rel (fun v l => ∃ t : Tree s.sv, t.NoReset ∧ t.run = .ok v ∧ t.leaves = l) (m ⟨s, k⟩) (j k)

theorem PMap.set_other {m : PMap E Q} {k j : Key E Q} {v : k.Val} (h : j ≠ k) : m.set k v j = m j := by
  rw [PMap.set, dif_neg h]
theorem PMap.set_same {m : PMap E Q} {k : Key E Q} {v : k.Val} : m.set k v k = some v := by
  rw [PMap.set, dif_pos rfl]

theorem Journal.Of.set {s : StatInst E} {j : Journal Q s} {m : PMap E Q} (h : j.Of m) (q : Qualifier Q) (v : s.Val)
    (l : List (StatOp s.sv)) (t : Tree s.sv) (h1 : t.NoReset) (h2 : t.run = .ok v) (h3 : t.leaves = l) :
    Journal.Of (fun k => if k = q then some l else j k) (m.set ⟨s, q⟩ v) := by
  intro k
  by_cases hk : k = q
  · subst hk
    rw [PMap.set_same]
    simp only [if_pos]
    exact .some ⟨t, h1, h2, h3⟩
  · rw [PMap.set_other (fun h => hk (congrArg Key.qual h))]
    simp only [if_neg hk]
    exact h k

theorem Journal.Of.set_other {s s' : StatInst E} {j : Journal Q s} {m : PMap E Q} (h : j.Of m) (q : Qualifier Q)
    (v : s'.Val) (hs : s' ≠ s) : j.Of (m.set ⟨s', q⟩ v) := by
  intro k
  rw [PMap.set_other (fun h => hs (congrArg Key.stat h).symm)]
  exact h k

theorem PMap.store_ok {m m' : PMap E Q} {k : Key E Q} {v : k.Val} (h : m.store k v = .ok m') : m' = m.set k v := by
  unfold PMap.store at h
  split at h <;> cases h
  rfl

theorem Journal.Of.step {s : StatInst E} {j : Journal Q s} {m m' : PMap E Q} (h : j.Of m) (o : MapOp E Q)
    (ho : o.WritesOps s) (hm : m.step o = .ok m') : (j.step s o).Of m' := by
  cases o with
  | insert q s' v =>
    cases PMap.store_ok hm
    exact h.set_other q v ho
  | insertBase q s' b =>
    cases PMap.store_ok hm
    by_cases hs : s' = s
    · subst hs
      simp only [Journal.step, dif_pos]
      exact h.set q _ _ (.base b) trivial rfl rfl
    · simp only [Journal.step, dif_neg hs]
      exact h.set_other q _ hs
  | modify q s' o =>
    by_cases hs : s' = s
    · subst hs
      simp only [Journal.step, dif_pos]
      have key : ∀ v t, (t : Tree s'.sv).NoReset → t.run = .ok v → t.leaves = (j q).getD [] → ∀ v',
          o.writeTo v = .ok v' → Journal.Of (fun k => if k = q then some (Journal.write ((j q).getD []) o) else j k)
            (m.set ⟨s', q⟩ v') := by
        intro v t t1 t2 t3 v' hv'
        by_cases hb : o.IsBase
        · cases o with
          | base b => cases hv'; exact h.set q _ _ (.base b) trivial rfl rfl
          | _ => cases hb
        · refine h.set q v' _ (.op t o) ⟨t1, hb⟩ (by rw [Tree.run, t2]; exact hv') ?_
          rw [Tree.leaves, t3]
          cases o with
          | base b => exact absurd trivial hb
          | _ => rfl
      have hq := h q
      change (match m ⟨s', q⟩ with
        | some v => o.writeTo v >>= fun v' => .ok (m.set ⟨s', q⟩ v')
        | none => o.writeTo s'.sv.default >>= fun v' => m.store ⟨s', q⟩ v') = .ok m' at hm
      cases hx : m ⟨s', q⟩ with
      | none =>
        rw [hx] at hm hq
        have hy : j q = none := by
          cases hy : j q with
          | none => rfl
          | some l => rw [hy] at hq; cases hq
        obtain ⟨v', h1, h2⟩ := Res.bind_eq_ok.1 hm
        cases PMap.store_ok h2
        exact key _ .dflt trivial rfl (by rw [hy]; rfl) v' h1
      | some v =>
        rw [hx] at hm hq
        obtain ⟨l, hy⟩ : ∃ l, j q = some l := by
          cases hy : j q with
          | none => rw [hy] at hq; cases hq
          | some l => exact ⟨l, rfl⟩
        rw [hy] at hq
        cases hq with
        | some hr =>
          obtain ⟨t, t1, t2, t3⟩ := hr
          obtain ⟨v', h1, h2⟩ := Res.bind_eq_ok.1 hm
          cases h2
          exact key _ t t1 t2 (by rw [t3, hy]; rfl) v' h1
    · simp only [Journal.step, dif_neg hs]
      change (match m ⟨s', q⟩ with
        | some v => o.writeTo v >>= fun v' => .ok (m.set ⟨s', q⟩ v')
        | none => o.writeTo s'.sv.default >>= fun v' => m.store ⟨s', q⟩ v') = .ok m' at hm
      cases hx : m ⟨s', q⟩ with
      | none =>
        rw [hx] at hm
        obtain ⟨v', h1, h2⟩ := Res.bind_eq_ok.1 hm
        cases PMap.store_ok h2
        exact h.set_other q _ hs
      | some v =>
        rw [hx] at hm
        obtain ⟨v', h1, h2⟩ := Res.bind_eq_ok.1 hm
        cases h2
        exact h.set_other q _ hs
  | modifyWith q s' f =>
    change (match m ⟨s', q⟩ with
      | some v => f v >>= fun v' => .ok (m.set ⟨s', q⟩ v')
      | none => f s'.sv.default >>= fun v' => m.store ⟨s', q⟩ v') = .ok m' at hm
    cases hx : m ⟨s', q⟩ with
    | none =>
      rw [hx] at hm
      obtain ⟨v', h1, h2⟩ := Res.bind_eq_ok.1 hm
      cases PMap.store_ok h2
      exact h.set_other q _ ho
    | some v =>
      rw [hx] at hm
      obtain ⟨v', h1, h2⟩ := Res.bind_eq_ok.1 hm
      cases h2
      exact h.set_other q _ ho
  | getMut q s' f =>
    change (match m ⟨s', q⟩ with
      | some v => f v >>= fun v' => .ok (m.set ⟨s', q⟩ v')
      | none => .ok m) = .ok m' at hm
    cases hx : m ⟨s', q⟩ with
    | none => rw [hx] at hm; cases hm; exact h
    | some v =>
      rw [hx] at hm
      obtain ⟨v', h1, h2⟩ := Res.bind_eq_ok.1 hm
      cases h2
      exact h.set_other q _ ho
  | iterMut s' f =>
    cases hm
    intro k
    rw [PMap.mapStat, dif_neg (fun h => ho h.symm)]
    exact h k
  | remove q s' =>
    cases hm
    intro k
    by_cases hs : s' = s
    · subst hs
      simp only [Journal.step, if_pos, PMap.unset]
      by_cases hk : k = q
      · rw [if_pos (by rw [hk]), if_pos hk]; exact .none
      · rw [if_neg (fun h => hk (congrArg Key.qual h)), if_neg hk]; exact h k
    · simp only [Journal.step, if_neg hs, PMap.unset]
      rw [if_neg (fun h => hs (congrArg Key.stat h).symm)]
      exact h k
  | removeAll s' =>
    cases hm
    intro k
    by_cases hs : s' = s
    · subst hs
      simp only [Journal.step, if_pos]
      exact .none
    · simp only [Journal.step, if_neg hs]
      rw [if_neg (fun h => hs h.symm)]
      exact h k
  | clear => cases hm; intro k; exact .none

theorem Journal.Of.runFrom {s : StatInst E} (h : List (MapOp E Q)) {j : Journal Q s} {m m' : PMap E Q} (hj : j.Of m)
    (ho : ∀ o ∈ h, o.WritesOps s) (hm : m.runFrom h = .ok m') : (h.foldl (Journal.step s) j).Of m' := by
  induction h generalizing j m with
  | nil => cases hm; exact hj
  | cons o h ih =>
    obtain ⟨m₁, h1, h2⟩ := Res.bind_eq_ok.1 hm
    exact ih (hj.step o (ho o (by simp)) h1) (fun o' h' => ho o' (by simp [h'])) h2

/-- the journal of the calls that filled a map tells what its values were assembled from -/
theorem Journal.of_run (s : StatInst E) (h : List (MapOp E Q)) {m : PMap E Q} (ho : ∀ o ∈ h, o.WritesOps s)
    (hm : PMap.run h = .ok m) : (Journal.ofCalls s h).Of m :=
  Journal.Of.runFrom h (fun _ => .none) ho hm

theorem exists_forall₂ {α β : Type} {R : α → β → Prop} (l : List α) (h : ∀ x ∈ l, ∃ y, R x y) :
    ∃ m, List.Forall₂ R l m := by
  induction l with
  | nil => exact ⟨[], .nil⟩
  | cons x l ih =>
    obtain ⟨y, hy⟩ := h x (by simp)
    obtain ⟨m, hm⟩ := ih fun x hx => h x (by simp [hx])
    exact ⟨y :: m, .cons hy hm⟩

theorem JournalsAt.matches {q : QualifierQuery Q} {s : StatInst E} {c : Ent → Option (List (MapOp E Q))} {e : Ent}
    {L : List (Qualifier Q × List (StatOp s.sv))} (hL : JournalsAt q s (c, e) L)
    (hok : ∀ h, c e = some h → (∃ m, StatMap.run A h = .ok m) ∧ ∀ o ∈ h, o.WritesOps s) :
    ∃ Lv : List (Qualifier Q × s.Val), MatchesAt q s (MapComp.ofOps (A := A) c, e) Lv ∧
      ∃ ts, List.Forall₂ (fun x t => Tree.NoReset t ∧ t.run = .ok x.2) Lv ts ∧
        ts.flatMap Tree.leaves = L.flatMap (·.2) := by
  have step : ∀ h, c e = some h → ∃ a, ((MapComp.ofOps (A := A) c).map e).isSome ∧
      (MapComp.ofOps (A := A) c).stored e = a ∧ (Journal.ofCalls s h).Of a := by
    intro h hh
    obtain ⟨⟨m, hm⟩, ho⟩ := hok h hh
    obtain ⟨a, ha, -⟩ := reachRep A hm
    refine ⟨a, ?_, ?_, Journal.of_run s h ho ha⟩
    · simp [MapComp.ofOps, hh, hm, Except.toOption]
    · simp [MapComp.ofOps, hh, ha, Except.toOption]
  let R := fun (x : Qualifier Q × List (StatOp s.sv)) (y : s.Val × Tree s.sv) =>
    (MapComp.ofOps (A := A) c).stored e ⟨s, x.1⟩ = some y.1 ∧ y.2.NoReset ∧ y.2.run = .ok y.1 ∧ y.2.leaves = x.2
  obtain ⟨ys, hys⟩ : ∃ ys, List.Forall₂ R L ys := by
    refine exists_forall₂ L fun x hx => ?_
    obtain ⟨h, h1, h2, -⟩ := (hL.mem x.1 x.2).1 hx
    obtain ⟨a, -, h3, h4⟩ := step h h1
    have := h4 x.1
    rw [h2] at this
    obtain ⟨v, hv⟩ : ∃ v, a ⟨s, x.1⟩ = some v := by
      cases hv : a ⟨s, x.1⟩ with
      | none => rw [hv] at this; cases this
      | some v => exact ⟨v, rfl⟩
    rw [hv] at this
    cases this with
    | some hr =>
      obtain ⟨t, t1, t2, t3⟩ := hr
      exact ⟨(v, t), by rw [h3]; exact hv, t1, t2, t3⟩
  have hz : ∀ z ∈ L.zip ys, R z.1 z.2 := fun z hz => (List.forall₂_iff_zip.1 hys).2 hz
  have hlen := hys.length_eq
  refine ⟨(L.zip ys).map fun z => (z.1.1, z.2.1), ⟨?_, fun k v => ?_⟩, ys.map (·.2), ?_, ?_⟩
  · rw [List.map_map]
    have : (fun x : Qualifier Q × s.Val => x.1) ∘ (fun z : (Qualifier Q × List (StatOp s.sv)) × s.Val × Tree s.sv =>
        (z.1.1, z.2.1)) = (fun x => x.1) ∘ Prod.fst := rfl
    rw [this, ← List.map_map, List.map_fst_zip (by omega)]
    exact hL.once
  · constructor
    · intro hm
      obtain ⟨z, hz1, hz2⟩ := List.mem_map.1 hm
      cases hz2
      obtain ⟨h, h1, h2, h3⟩ := (hL.mem z.1.1 z.1.2).1 (List.of_mem_zip hz1).1
      obtain ⟨a, h4, -, -⟩ := step h h1
      exact ⟨h4, (hz z hz1).1, h3⟩
    · rintro ⟨h1, h2, h3⟩
      obtain ⟨h, hh⟩ : ∃ h, c e = some h := by
        cases hh : c e with
        | none => simp [MapComp.ofOps, hh] at h1
        | some h => exact ⟨h, rfl⟩
      obtain ⟨a, -, h4, h5⟩ := step h hh
      change (MapComp.ofOps (A := A) c).stored e ⟨s, k⟩ = some v at h2
      have h6 := h5 k
      rw [← h4, h2] at h6
      obtain ⟨l, hl⟩ : ∃ l, Journal.ofCalls s h k = some l := by
        cases hl : Journal.ofCalls s h k with
        | none => rw [hl] at h6; cases h6
        | some l => exact ⟨l, rfl⟩
      have hm := (hL.mem k l).2 ⟨h, hh, hl, h3⟩
      obtain ⟨i, hi, hi'⟩ := List.getElem_of_mem hm
      have hi2 : i < (L.zip ys).length := by rw [List.length_zip]; omega
      have hr := hz _ (List.getElem_mem hi2)
      rw [List.getElem_zip] at hr
      have hr1 := hr.1
      rw [hi'] at hr1
      refine List.mem_map.2 ⟨_, List.getElem_mem hi2, ?_⟩
      rw [List.getElem_zip, hi']
      have : some v = some (ys[i]).1 := h2.symm.trans hr1
      cases this
      rfl
  · clear hz hL step hok
    induction hys with
    | nil => exact .nil
    | cons hx _ ih => exact .cons ⟨hx.2.1, hx.2.2.1⟩ (ih (by simpa using hlen))
  · clear hz hL step hok
    induction hys with
    | nil => rfl
    | cons hx _ ih =>
      rw [List.map_cons, List.flatMap_cons, List.flatMap_cons, hx.2.2.2, ih (by simpa using hlen)]

/-- C111, from the calls: if the maps were filled by `insert_base`, `modify`, `remove`, `remove_all` and `clear`
(anything else being about other stats), and no default is registered, what the query adds up are the operations
written down in the journals, under matching qualifiers. -/
theorem C111_calls (J : Joined E Q Ent) (own items : List (Ent → Option (List (MapOp E Q)))) (e : Ent)
    (q : QualifierQuery Q) (s : StatInst E) {V : Type} {D : StatValue V} (hD : s.Is D)
    (hok : ∀ c ∈ own ++ items, ∀ e h, c e = some h → (∃ m, StatMap.run A h = .ok m) ∧ ∀ o ∈ h, o.WritesOps s)
    (hd : J.world.startValue A s = .ok (.val s.ty s.sv.default))
    (Js : List (List (Qualifier Q × List (StatOp s.sv))))
    (hJ : List.Forall₂ (JournalsAt q s) (callPlaces J own items e) Js) :
    AssembledFrom J (own.map (MapComp.ofOps (A := A))) (items.map MapComp.ofOps) e q s hD
      (asOps hD (Js.flatten.flatMap (·.2))) := by
  cases hD
  have hp : mapPlaces J (own.map (MapComp.ofOps (A := A))) (items.map MapComp.ofOps) e =
      (callPlaces J own items e).map fun x => (MapComp.ofOps x.1, x.2) := by
    simp [mapPlaces, callPlaces, List.map_flatMap, List.flatMap_map, Function.comp_def]
  have hin : ∀ x ∈ callPlaces J own items e, x.1 ∈ own ++ items := by
    intro x hx
    simp only [callPlaces, List.mem_append, List.mem_map, List.mem_flatMap] at hx
    rcases hx with ⟨c, hc, rfl⟩ | ⟨c, hc, y, -, rfl⟩
    · exact List.mem_append_left _ hc
    · exact List.mem_append_right _ hc
  have key : ∀ (ps : List ((Ent → Option (List (MapOp E Q))) × Ent)) Js, (∀ x ∈ ps, x.1 ∈ own ++ items) →
      List.Forall₂ (JournalsAt q s) ps Js →
      ∃ Ls, List.Forall₂ (MatchesAt q s) (ps.map fun x => (MapComp.ofOps (A := A) x.1, x.2)) Ls ∧
        ∃ ts, List.Forall₂ (fun x t => Tree.NoReset t ∧ t.run = .ok x.2) Ls.flatten ts ∧
          ts.flatMap Tree.leaves = Js.flatten.flatMap (·.2) := by
    intro ps Js hin hJ
    induction hJ with
    | nil => exact ⟨[], .nil, [], .nil, rfl⟩
    | @cons x L ps Js hx _ ih =>
      obtain ⟨Lv, h1, ts, h2, h3⟩ := JournalsAt.matches (A := A) (c := x.1) (e := x.2) hx
        (hok x.1 (hin x (by simp)) x.2)
      obtain ⟨Ls, h4, ts', h5, h6⟩ := ih fun y hy => hin y (by simp [hy])
      refine ⟨Lv :: Ls, .cons h1 h4, ts ++ ts', List.rel_append h2 h5, ?_⟩
      rw [List.flatMap_append, h3, h6, List.flatten_cons, List.flatMap_append]
  obtain ⟨Ls, h1, ts, h2, h3⟩ := key _ Js hin hJ
  refine ⟨s.sv.default, Ls, .dflt, ts, hd, by rw [hp]; exact h1, trivial, rfl, h2, ?_⟩
  rw [Tree.leaves, List.nil_append, h3]
  rfl

/-! ### a concrete case -/

/-- a program with one stat type, of the given value type -/
abbrev solo {V : Type} (D : StatValue V) : Env where
  U := Unit
  El _ := V
  sv _ := D
  layout _ := ⟨16, 8⟩
  opLayout _ := ⟨8, 4⟩
  S := Unit
  valTy _ := ()
  statLayout _ := ⟨1, 1⟩
  Sel _ := Nat
  asIndex x := x
  fromIndex _ i := .ok i
  statName x := toString x
  values _ := []

abbrev soloAddr {V : Type} (D : StatValue V) : Addr (solo D) := ⟨fun _ => 1000, fun _ => rfl⟩
abbrev soloStat {V : Type} (D : StatValue V) : StatInst (solo D) := ⟨(), 0⟩

/-- entity 0 with child 1; the entity's map is filled with `own`, that of the child with `item`, unqualified -/
abbrev soloOwn {V : Type} {D : StatValue V} (b : D.BaseT) (ops : List (StatOp D)) (e : Nat) :
    Option (List (MapOp (solo D) (BitVec 8))) :=
  if e = 0 then some (.insertBase ⟨0, 0⟩ (soloStat D) b :: ops.map (.modify ⟨0, 0⟩ (soloStat D))) else none
abbrev soloItem {V : Type} {D : StatValue V} (ops : List (StatOp D)) (e : Nat) :
    Option (List (MapOp (solo D) (BitVec 8))) :=
  if e = 1 then some (ops.map (.modify ⟨0, 0⟩ (soloStat D))) else none

def soloWorld {V : Type} {D : StatValue V} (b : D.BaseT) (ops ops' : List (StatOp D)) :
    Joined (solo D) (BitVec 8) Nat :=
  (({ isStat := fun e => e == 0, children := fun e => if e = 0 then some [1] else none, defaults := none,
      relations := none, cached := true, placeholder := 99 : World (solo D) (BitVec 8) Nat }).withComponent
    (MapComp.ofOps (A := soloAddr D) (soloOwn b ops)).stream).withChildren
    (MapComp.ofOps (A := soloAddr D) (soloItem ops')).stream

section
variable {V : Type} {D : StatValue V} (b : D.BaseT) (o : StatOp D) (os os' : List (StatOp D))

theorem soloWorld_only : OnlyMaps (soloWorld b os os') ([soloOwn b os].map (MapComp.ofOps (A := soloAddr D)))
    ([soloItem os'].map MapComp.ofOps) := ⟨rfl, rfl, rfl, rfl⟩

theorem solo_modifies (hos : ∀ o ∈ os, ¬ o.IsBase) (l : List (StatOp D)) (j : Journal (BitVec 8) (soloStat D))
    (hj : j = fun k => if k = ⟨0, 0⟩ then some l else none) :
    (os.map (.modify ⟨0, 0⟩ (soloStat D))).foldl (Journal.step (soloStat D)) j =
      fun k => if k = ⟨0, 0⟩ then some (l ++ os) else none := by
  induction os generalizing l j with
  | nil => simpa using hj
  | cons o os ih =>
    rw [List.map_cons, List.foldl_cons, ih (fun o h => hos o (by simp [h])) (l ++ [o])]
    · simp
    · subst hj
      simp only [Journal.step, dif_pos, if_pos, Option.getD_some]
      have : Journal.write l o = l ++ [o] := by
        have := hos o (by simp)
        cases o with
        | base b => exact absurd trivial this
        | _ => rfl
      funext k
      by_cases hk : k = ⟨0, 0⟩
      · rw [if_pos hk, if_pos hk, this]
      · rw [if_neg hk, if_neg hk, if_neg hk]

theorem solo_listed {c : Nat → Option (List (MapOp (solo D) (BitVec 8)))} {e : Nat} {h : List (MapOp (solo D) (BitVec 8))}
    {l : List (StatOp D)} (hc : c e = some h)
    (hl : Journal.ofCalls (soloStat D) h = fun k => if k = ⟨0, 0⟩ then some l else none) :
    JournalsAt demoQ (soloStat D) (c, e) [(⟨0, 0⟩, l)] := by
  refine ⟨by simp, fun k l' => ?_⟩
  rw [List.mem_singleton]
  constructor
  · intro h'
    cases h'
    exact ⟨h, hc, by rw [hl]; simp, by rw [← matches_iff]; decide⟩
  · rintro ⟨h', h1, h2, -⟩
    cases hc.symm.trans h1
    rw [hl] at h2
    by_cases hk : k = ⟨0, 0⟩
    · subst hk; simp at h2; rw [h2]
    · simp only [if_neg hk] at h2; cases h2

/-- the hypotheses of C111 are met by every value type: a base value and operations in a map, and operations in the
map of a child -/
theorem solo_assembled (hos : ∀ o ∈ os, ¬ o.IsBase) (hos' : ∀ o' ∈ o :: os', ¬ o'.IsBase)
    (h1 : ∃ m, StatMap.run (soloAddr D) (.insertBase (⟨0, 0⟩ : Qualifier (BitVec 8)) (soloStat D) b ::
      os.map (.modify ⟨0, 0⟩ (soloStat D))) = .ok m)
    (h2 : ∃ m, StatMap.run (soloAddr D) ((o :: os').map
      (.modify (⟨0, 0⟩ : Qualifier (BitVec 8)) (soloStat D))) = .ok m) :
    AssembledFrom (soloWorld b os (o :: os')) ([soloOwn b os].map (MapComp.ofOps (A := soloAddr D)))
      ([soloItem (o :: os')].map MapComp.ofOps) 0 demoQ (soloStat D) rfl (.base b :: os ++ (o :: os')) := by
  have := C111_calls (A := soloAddr D) (soloWorld b os (o :: os')) [soloOwn b os] [soloItem (o :: os')] 0 demoQ
    (soloStat D) rfl ?_ rfl [[(⟨0, 0⟩, .base b :: os)], [(⟨0, 0⟩, o :: os')]]
    (.cons (solo_listed rfl ?_) (.cons (solo_listed rfl ?_) .nil))
  · simpa [asOps] using this
  · intro c hc e h hh
    rcases List.mem_cons.1 hc with rfl | hc
    · unfold soloOwn at hh
      split at hh
      · cases hh
        refine ⟨h1, fun o ho => ?_⟩
        rcases List.mem_cons.1 ho with rfl | ho
        · trivial
        · obtain ⟨o', -, rfl⟩ := List.mem_map.1 ho
          trivial
      · cases hh
    · cases List.mem_singleton.1 (show c ∈ [_] from hc)
      unfold soloItem at hh
      split at hh
      · cases hh
        refine ⟨h2, fun o ho => ?_⟩
        obtain ⟨o', -, rfl⟩ := List.mem_map.1 ho
        trivial
      · cases hh
  · unfold Journal.ofCalls
    rw [List.foldl_cons, solo_modifies os hos [.base b]]
    · simp
    · simp [Journal.step]
  · unfold Journal.ofCalls
    rw [List.map_cons, List.foldl_cons, solo_modifies os' (fun o h => hos' o (by simp [h])) [o]]
    · simp
    · have : Journal.write [] o = [o] := by
        have := hos' o (by simp)
        cases o with
        | base b => exact absurd trivial this
        | _ => rfl
      funext k
      simp [Journal.step, this]
end

/-- `StatFloat<f32>`: the hypotheses are met with a base of `2^24`, `+ 1`, `+ 1` and `* 1.5` -/
example : let D := statFloat (Fl.ops .f32)
    ∃ (w : StatFloat Fl) (out : Fl), (∀ n, (soloWorld (D := D) (.fin (2 ^ 24)) [.add (.fin 1), .add (.fin 1)]
      [.mul (.fin (3 / 2))]).answer (soloAddr D) (n + 1) (.stat 0 demoQ (soloStat D)) = .ok (some w)) ∧
      D.eval w = .ok out ∧ ∃ x, out = .fin x ∧ |x - (2 ^ 24 + 2) * (3 / 2)| ≤ 8 := by
  intro D
  obtain ⟨w, out, x, h1, h2, h3, h4⟩ := C111_float (A := soloAddr D) (soloWorld_only _ _ _) 0 demoQ
    (soloStat D) (by decide) rfl .f32 Fmt.normal_f32 rfl _
    (solo_assembled (D := D) (.fin (2 ^ 24)) (.mul (.fin (3 / 2))) [.add (.fin 1), .add (.fin 1)] []
      (by simp [StatOp.IsBase]) (by simp [StatOp.IsBase]) ⟨_, rfl⟩ ⟨_, rfl⟩)
    (by
      have r1 : Fl.IsNum .f32 (.fin 1) :=
        ⟨_, rfl, 1, 0, by norm_num, by decide, by decide, by norm_num [abs_of_pos, Fmt.f32]⟩
      have r2 : Fl.IsNum .f32 (.fin (3 / 2)) :=
        ⟨_, rfl, 3, -1, by norm_num, by decide, by decide, by norm_num [abs_of_pos, Fmt.f32]⟩
      have r3 : Fl.IsNum .f32 (.fin (2 ^ 24)) :=
        ⟨_, rfl, 2 ^ 24, 0, by norm_num, by decide, by decide, by norm_num [abs_of_pos, Fmt.f32]⟩
      intro o ho
      simp only [List.cons_append, List.nil_append, List.mem_cons, List.not_mem_nil, or_false] at ho
      rcases ho with rfl | rfl | rfl | rfl
      exacts [r3, r1, r1, r2])
    (by simp only [SumsFit]; decide +kernel) (by simp only [ProductsFit]; refine ⟨?_, ?_⟩ <;> decide +kernel)
    (by decide +kernel)
  refine ⟨w, out, h1, h2, x, h3, ?_⟩
  refine (le_of_eq ?_).trans (h4.trans ?_)
  · congr 2
    decide +kernel
  · decide +kernel

/-- percentages: `30 * (100 + 15 + 10) / 100 = 37.5`, rounded down -/
example : ∃ (w : StatIntPercentAdditive) (out : Int),
    let D := statIntPercentAdditive ⟨.i32, .prim, .debug⟩ .floor 100
    (∀ n, (soloWorld (D := D) (30 : Int) [.mul (15 : Int)] [.mul (10 : Int)]).answer (soloAddr D) (n + 1)
      (.stat 0 demoQ (soloStat D)) = .ok (some w)) ∧ D.eval w = .ok out ∧ out = 37 := by
  let D := statIntPercentAdditive ⟨.i32, .prim, .debug⟩ .floor 100
  obtain ⟨w, out, z, h1, h2, h3, h4⟩ := C111_percent_additive (A := soloAddr D) (soloWorld_only _ _ _) 0 demoQ
    (soloStat D) (by decide) rfl ⟨.i32, .prim, .debug⟩ rfl (by decide) (by decide) .floor 100 (by decide)
    (by decide) rfl _ (solo_assembled (D := D) (30 : Int) (.mul (10 : Int)) [.mul (15 : Int)] []
      (by simp [StatOp.IsBase]) (by simp [StatOp.IsBase]) ⟨_, rfl⟩ ⟨_, rfl⟩)
    (by
      intro o ho
      fin_cases ho <;> exact ⟨by decide, by decide⟩)
    (by decide) (by decide) (by decide)
  refine ⟨w, out, h1, h2, ?_⟩
  have h5 : (z : ℚ) ≤ 75 / 2 ∧ (75 / 2 : ℚ) < z + 1 := by
    have : (((30 + 0 : ℤ) : ℚ) * (((100 : ℤ) : ℚ) + ((15 + (10 + 0) : ℤ) : ℚ)) / ((100 : ℤ) : ℚ)) = 75 / 2 := by norm_num
    rw [← this]
    exact h3
  have h6 : z = 37 := by
    have h7 : z < 38 := by
      have : (z : ℚ) < 38 := by linarith [h5.1]
      exact_mod_cast this
    have h8 : 36 < z := by
      have : (36 : ℚ) < z := by linarith [h5.2]
      exact_mod_cast this
    omega
  subst h6
  exact h4

end BSQ
