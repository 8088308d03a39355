import Verif.Proofs.RoundOff
import Verif.Props.Returns
/-!
# C84: float stats are order independent up to rounding
-/
namespace BSQ
open Contrib

theorem Fl.max_fin (a b : ℚ) : Fl.max (.fin a) (.fin b) = .fin (Max.max a b) := by
  simp only [Fl.max, Fl.fin.injEq]
  split
  · exact (max_eq_left (le_of_lt ‹_›)).symm
  · exact (max_eq_right (not_lt.1 ‹_›)).symm
theorem Fl.min_fin (a b : ℚ) : Fl.min (.fin a) (.fin b) = .fin (Min.min a b) := by
  simp only [Fl.min, Fl.fin.injEq]
  split
  · exact (min_eq_right (le_of_lt ‹_›)).symm
  · exact (min_eq_left (not_lt.1 ‹_›)).symm

section
variable {f : Fmt} {A B : Type}

theorem SumApprox.zero (hf : f.Normal) : SumApprox f (.fin 0) [] 0 :=
  ⟨rfl, Fl.rep_zero hf, by simp [absSum]⟩
theorem ProdApprox.one (hf : f.Normal) : ProdApprox f (.fin 1) [] 1 :=
  ⟨rfl, Fl.rep_one hf, by simp [Fmt.growth]⟩

theorem absSum_nil_of {l : List ℚ} (h : l.length = 0) : absSum l = 0 := by
  rw [List.length_eq_zero_iff.1 h]; simp [absSum]

/-- the exponents of the evaluated product -/
theorem growth_eval (f : Fmt) (l : List ℚ) (k : ℕ) (S : ℚ) (hS : 0 ≤ S) :
    (f.growth (l.length - 1) * f.growth (k - 1) * (1 + f.eps) - 1) * (absSum l * S) ≤
      (f.growth (l.length + k) - 1) * (absSum l * S) := by
  rcases Nat.eq_zero_or_pos l.length with h | h
  · rw [absSum_nil_of h]; simp
  · refine mul_le_mul_of_nonneg_right ?_ (mul_nonneg (absSum_nonneg _) hS)
    rw [← Fmt.growth_one, ← Fmt.growth_add, ← Fmt.growth_add]
    linarith [f.growth_mono (show l.length - 1 + (k - 1) + 1 ≤ l.length + k by omega)]

theorem growth_fit (f : Fmt) (l : List ℚ) (k : ℕ) (S : ℚ) (hS : 0 ≤ S) :
    f.growth (l.length - 1) * f.growth (k - 1) * (absSum l * S) ≤
      f.growth (l.length + k) * (absSum l * S) := by
  refine mul_le_mul_of_nonneg_right ?_ (mul_nonneg (absSum_nonneg _) hS)
  rw [← Fmt.growth_add]
  exact f.growth_mono (by omega)

theorem sub_triangle (x y c : ℚ) : |x - y| ≤ |x - c| + |y - c| := by
  have := abs_add_le (x - c) (c - y)
  rw [abs_sub_comm c y] at this
  simpa using this
end

/-- What the fields of a `StatFloat` are after assembling it in any way. -/
theorem statFloat.approx (f : Fmt) (hf : f.Normal) (tr : Tree (statFloat (Fl.ops f))) (hr : tr.NoReset)
    (hok : ∀ o ∈ tr.leaves, statFloat.Num f o) (v : StatFloat Fl) (hv : tr.run = .ok v) :
    let C := tr.leaves.map statFloat.qContrib
    (SumsFit f (addends C) → ∃ a, SumApprox f v.addend (addends C) a) ∧
    (ProductsFit f (mults C) → ∃ m, ProdApprox f v.mult (mults C) m) ∧
    v.min = .fin (floorOf (-f.maxVal) C) ∧ v.max = .fin (capOf f.maxVal C) := by
  refine Tree.run_rep (fun v L => let C := L.map statFloat.qContrib
    (SumsFit f (addends C) → ∃ a, SumApprox f v.addend (addends C) a) ∧
    (ProductsFit f (mults C) → ∃ m, ProdApprox f v.mult (mults C) m) ∧
    v.min = .fin (floorOf (-f.maxVal) C) ∧ v.max = .fin (capOf f.maxVal C)) (statFloat.Num f) ?_ ?_ ?_ ?_
    tr v hr hok hv
  · exact ⟨fun _ => ⟨0, .zero hf⟩, fun _ => ⟨1, .one hf⟩, rfl, rfl⟩
  · rintro _ ⟨q, rfl, hq⟩
    exact ⟨fun _ => ⟨q, .single hq⟩, fun _ => ⟨1, .one hf⟩, rfl, rfl⟩
  · intro v L o v' hnb ho ⟨h1, h2, h3, h4⟩ e
    simp only [List.map_append, List.map_singleton, addends_append, mults_append, floorOf_snoc, capOf_snoc]
    cases o with
    | or x => exact x.elim
    | not x => exact x.elim
    | base x => exact absurd trivial hnb
    | add a =>
      obtain ⟨q, rfl, hq⟩ := ho
      cases e
      simp only [statFloat.qContrib, addends, mults, List.append_nil, Fl.toQ]
      refine ⟨fun hs => ?_, h2, h3, h4⟩
      obtain ⟨a, ha⟩ := h1 hs.of_append.1
      exact ha.add hf (.single hq) hs
    | mul m =>
      obtain ⟨q, rfl, hq⟩ := ho
      cases e
      simp only [statFloat.qContrib, addends, mults, List.append_nil, Fl.toQ]
      refine ⟨h1, fun hs => ?_, h3, h4⟩
      obtain ⟨a, ha⟩ := h2 hs.of_append.1
      exact ha.mul hf (.single hq) hs
    | min b =>
      obtain ⟨q, rfl, hq⟩ := ho
      cases e
      simp only [statFloat.qContrib, addends, mults, List.append_nil, Fl.toQ]
      exact ⟨h1, h2, by simp [h3, Fl.max_fin, max_comm, floorOf], h4⟩
    | max b =>
      obtain ⟨q, rfl, hq⟩ := ho
      cases e
      simp only [statFloat.qContrib, addends, mults, List.append_nil, Fl.toQ]
      exact ⟨h1, h2, h3, by simp [h4, Fl.min_fin, min_comm, capOf]⟩
  · intro a b L K v ⟨a1, a2, a3, a4⟩ ⟨b1, b2, b3, b4⟩ e
    cases e
    simp only [List.map_append, addends_append, mults_append, floorOf_append, capOf_append, a3, a4, b3, b4,
      Fl.max_fin, Fl.min_fin, and_true]
    refine ⟨fun hs => ?_, fun hs => ?_⟩
    · obtain ⟨x, hx⟩ := a1 hs.of_append.1
      obtain ⟨y, hy⟩ := b1 hs.of_append.2
      exact hx.add hf hy hs
    · obtain ⟨x, hx⟩ := a2 hs.of_append.1
      obtain ⟨y, hy⟩ := b2 hs.of_append.2
      exact hx.mul hf hy hs

/-- C84 for `StatFloat` over `f32`/`f64`: if no order of the calculation can overflow or underflow, then every
order of assembly evaluates to the exact clamped `sum * product` up to one relative rounding error `2^-p` per
operation (plus half a subnormal step). -/
theorem C84_float (f : Fmt) (hf : f.Normal) (tr : Tree (statFloat (Fl.ops f))) (hr : tr.NoReset)
    (hok : ∀ o ∈ tr.leaves, statFloat.Num f o) :
    let C := tr.leaves.map statFloat.qContrib
    let size := absSum (addends C) * |product C|
    let n := (addends C).length + (mults C).length
    SumsFit f (addends C) → ProductsFit f (mults C) → f.growth n * size ≤ f.maxVal →
    ∃ v out, tr.run = .ok v ∧ (statFloat (Fl.ops f)).eval v = .ok (.fin out) ∧
      |out - clampTo (total C * product C) (floorOf (-f.maxVal) C) (capOf f.maxVal C)| ≤
        (f.growth n - 1) * size + f.tiny := by
  intro C size n hS hP hE
  obtain ⟨v, hv⟩ := Tree.run_total (D := statFloat (Fl.ops f))
    (fun o v => by cases o <;> exact ⟨_, rfl⟩) (fun a b => ⟨_, rfl⟩) tr
  obtain ⟨h1, h2, h3, h4⟩ := statFloat.approx f hf tr hr hok v hv
  obtain ⟨a, ha⟩ := h1 hS
  obtain ⟨m, hm⟩ := h2 hP
  have hprod : product C = (mults C).prod := product_eq C
  have htot : total C = (addends C).sum := total_eq C
  obtain ⟨r, hr, -, he⟩ := Fl.mul_approx hf ha.err hm.err (abs_sum_le _) le_rfl (f.one_le_growth _)
    (f.one_le_growth _) ((growth_fit f _ _ _ (abs_nonneg _)).trans (by rw [← hprod]; exact hE))
  refine ⟨v, _, hv, ?_, (clampTo_err r _ _ _).trans ?_⟩
  · simp only [ha.fin, hm.fin, Res.bind_ok, hr, h3, h4, Fl.min_fin, Fl.max_fin]; rfl
  · have := he.trans (add_le_add_left (growth_eval f _ _ _ (abs_nonneg _)) _)
    show |r - total C * product C| ≤ (f.growth n - 1) * (absSum (addends C) * |product C|) + f.tiny
    rw [hprod, htot]
    exact this

/-- What the fields of a `StatFloatAdditive` are after assembling it in any way. -/
theorem statFloatAdditive.approx (f : Fmt) (hf : f.Normal) (tr : Tree (statFloatAdditive (Fl.ops f))) (hr : tr.NoReset)
    (hok : ∀ o ∈ tr.leaves, statFloatAdditive.Num f o) (v : StatFloatAdditive Fl) (hv : tr.run = .ok v) :
    let C := tr.leaves.map statFloatAdditive.qContrib
    (SumsFit f (addends C) → ∃ a, SumApprox f v.addend (addends C) a) ∧
    (SumsFit f (mults C) → ∃ m, SumApprox f v.mult (mults C) m) ∧
    v.min = .fin (floorOf (-f.maxVal) C) ∧ v.max = .fin (capOf f.maxVal C) := by
  refine Tree.run_rep (fun v L => let C := L.map statFloatAdditive.qContrib
    (SumsFit f (addends C) → ∃ a, SumApprox f v.addend (addends C) a) ∧
    (SumsFit f (mults C) → ∃ m, SumApprox f v.mult (mults C) m) ∧
    v.min = .fin (floorOf (-f.maxVal) C) ∧ v.max = .fin (capOf f.maxVal C)) (statFloatAdditive.Num f) ?_ ?_ ?_ ?_
    tr v hr hok hv
  · exact ⟨fun _ => ⟨0, .zero hf⟩, fun _ => ⟨0, .zero hf⟩, rfl, rfl⟩
  · rintro _ ⟨q, rfl, hq⟩
    exact ⟨fun _ => ⟨q, .single hq⟩, fun _ => ⟨0, .zero hf⟩, rfl, rfl⟩
  · intro v L o v' hnb ho ⟨h1, h2, h3, h4⟩ e
    simp only [List.map_append, List.map_singleton, addends_append, mults_append, floorOf_snoc, capOf_snoc]
    cases o with
    | or x => exact x.elim
    | not x => exact x.elim
    | base x => exact absurd trivial hnb
    | add a =>
      obtain ⟨q, rfl, hq⟩ := ho
      cases e
      simp only [statFloatAdditive.qContrib, addends, mults, List.append_nil, Fl.toQ]
      refine ⟨fun hs => ?_, h2, h3, h4⟩
      obtain ⟨a, ha⟩ := h1 hs.of_append.1
      exact ha.add hf (.single hq) hs
    | mul m =>
      obtain ⟨q, rfl, hq⟩ := ho
      cases e
      simp only [statFloatAdditive.qContrib, addends, mults, List.append_nil, Fl.toQ]
      refine ⟨h1, fun hs => ?_, h3, h4⟩
      obtain ⟨a, ha⟩ := h2 hs.of_append.1
      exact ha.add hf (.single hq) hs
    | min b =>
      obtain ⟨q, rfl, hq⟩ := ho
      cases e
      simp only [statFloatAdditive.qContrib, addends, mults, List.append_nil, Fl.toQ]
      exact ⟨h1, h2, by simp [h3, Fl.max_fin, max_comm, floorOf], h4⟩
    | max b =>
      obtain ⟨q, rfl, hq⟩ := ho
      cases e
      simp only [statFloatAdditive.qContrib, addends, mults, List.append_nil, Fl.toQ]
      exact ⟨h1, h2, h3, by simp [h4, Fl.min_fin, min_comm, capOf]⟩
  · intro a b L K v ⟨a1, a2, a3, a4⟩ ⟨b1, b2, b3, b4⟩ e
    cases e
    simp only [List.map_append, addends_append, mults_append, floorOf_append, capOf_append, a3, a4, b3, b4,
      Fl.max_fin, Fl.min_fin, and_true]
    refine ⟨fun hs => ?_, fun hs => ?_⟩
    · obtain ⟨x, hx⟩ := a1 hs.of_append.1
      obtain ⟨y, hy⟩ := b1 hs.of_append.2
      exact hx.add hf hy hs
    · obtain ⟨x, hx⟩ := a2 hs.of_append.1
      obtain ⟨y, hy⟩ := b2 hs.of_append.2
      exact hx.add hf hy hs

/-- C84 for `StatFloatAdditive` over `f32`/`f64` -/
theorem C84_additive (f : Fmt) (hf : f.Normal) (tr : Tree (statFloatAdditive (Fl.ops f))) (hr : tr.NoReset)
    (hok : ∀ o ∈ tr.leaves, statFloatAdditive.Num f o) :
    let C := tr.leaves.map statFloatAdditive.qContrib
    let size := absSum (addends C) * (absSum (mults C) + 1)
    let n := (addends C).length + (mults C).length + 1
    SumsFit f (addends C) → SumsFit f (mults C ++ [1]) → f.growth n * size ≤ f.maxVal →
    ∃ v out, tr.run = .ok v ∧ (statFloatAdditive (Fl.ops f)).eval v = .ok (.fin out) ∧
      |out - clampTo (total C * (multSum C + 1)) (floorOf (-f.maxVal) C) (capOf f.maxVal C)| ≤
        (f.growth n - 1) * size + f.tiny := by
  intro C size n hS hP hE
  obtain ⟨v, hv⟩ := Tree.run_total (D := statFloatAdditive (Fl.ops f))
    (fun o v => by cases o <;> exact ⟨_, rfl⟩) (fun a b => ⟨_, rfl⟩) tr
  obtain ⟨h1, h2, h3, h4⟩ := statFloatAdditive.approx f hf tr hr hok v hv
  obtain ⟨a, ha⟩ := h1 hS
  obtain ⟨m, hm⟩ := h2 hP.of_append.1
  obtain ⟨m', hm'⟩ := hm.add hf (.single (Fl.rep_one hf)) hP
  have hsum : multSum C + 1 = (mults C ++ [1]).sum := by rw [multSum_eq]; simp
  have habs : absSum (mults C ++ [1]) = absSum (mults C) + 1 := by rw [absSum_append]; simp [absSum]
  have htot : total C = (addends C).sum := total_eq C
  have hlen : n = (addends C).length + (mults C ++ [1]).length := by simp [n, add_assoc]
  have hnn := absSum_nonneg (mults C ++ [1])
  rw [hlen]
  rw [hlen] at hE
  obtain ⟨r, hr, -, he⟩ := Fl.mul_approx hf ha.err hm'.err (abs_sum_le _) (abs_sum_le _) (f.one_le_growth _)
    (f.one_le_growth _) ((growth_fit f _ _ _ hnn).trans (by rw [habs]; exact hE))
  refine ⟨v, _, hv, ?_, (clampTo_err r _ _ _).trans ?_⟩
  · have hm2 := hm'.fin
    simp only [ha.fin, hm2, Res.bind_ok, hr, h3, h4, Fl.min_fin, Fl.max_fin]; rfl
  · have := he.trans (add_le_add_left (growth_eval f _ _ _ hnn) _)
    show |r - total C * (multSum C + 1)| ≤ (_ - 1) * (absSum (addends C) * (absSum (mults C) + 1)) + f.tiny
    rw [hsum, htot, ← habs]
    exact this

/-- What the fields of a `StatMult` are after assembling it in any way. -/
theorem statMult.approx (f : Fmt) (hf : f.Normal) (tr : Tree (statMult (Fl.ops f))) (hr : tr.NoReset)
    (hok : ∀ o ∈ tr.leaves, statMult.Num f o) (v : StatMult Fl) (hv : tr.run = .ok v) :
    let C := tr.leaves.map statMult.qContrib
    (ProductsFit f (mults C) → ∃ m, ProdApprox f v.mult (mults C) m) ∧
    v.min = .fin (floorOf (-f.maxVal) C) ∧ v.max = .fin (capOf f.maxVal C) := by
  refine Tree.run_rep (fun v L => let C := L.map statMult.qContrib
    (ProductsFit f (mults C) → ∃ m, ProdApprox f v.mult (mults C) m) ∧
    v.min = .fin (floorOf (-f.maxVal) C) ∧ v.max = .fin (capOf f.maxVal C)) (statMult.Num f) ?_ ?_ ?_ ?_
    tr v hr hok hv
  · exact ⟨fun _ => ⟨1, .one hf⟩, rfl, rfl⟩
  · rintro _ ⟨q, rfl, hq⟩
    exact ⟨fun _ => ⟨q, .single hq⟩, rfl, rfl⟩
  · intro v L o v' hnb ho ⟨h2, h3, h4⟩ e
    simp only [List.map_append, List.map_singleton, mults_append, floorOf_snoc, capOf_snoc]
    cases o with
    | or x => exact x.elim
    | not x => exact x.elim
    | base x => exact absurd trivial hnb
    | add x => exact x.elim
    | mul m =>
      obtain ⟨q, rfl, hq⟩ := ho
      cases e
      simp only [statMult.qContrib, mults, Fl.toQ]
      refine ⟨fun hs => ?_, h3, h4⟩
      obtain ⟨a, ha⟩ := h2 hs.of_append.1
      exact ha.mul hf (.single hq) hs
    | min b =>
      obtain ⟨q, rfl, hq⟩ := ho
      cases e
      simp only [statMult.qContrib, mults, List.append_nil, Fl.toQ]
      exact ⟨h2, by simp [h3, Fl.max_fin, max_comm, floorOf], h4⟩
    | max b =>
      obtain ⟨q, rfl, hq⟩ := ho
      cases e
      simp only [statMult.qContrib, mults, List.append_nil, Fl.toQ]
      exact ⟨h2, h3, by simp [h4, Fl.min_fin, min_comm, capOf]⟩
  · intro a b L K v ⟨a2, a3, a4⟩ ⟨b2, b3, b4⟩ e
    cases e
    simp only [List.map_append, mults_append, floorOf_append, capOf_append, a3, a4, b3, b4,
      Fl.max_fin, Fl.min_fin, and_true]
    intro hs
    obtain ⟨x, hx⟩ := a2 hs.of_append.1
    obtain ⟨y, hy⟩ := b2 hs.of_append.2
    exact hx.mul hf hy hs

/-- C84 for `StatMult` over `f32`/`f64` -/
theorem C84_mult (f : Fmt) (hf : f.Normal) (tr : Tree (statMult (Fl.ops f))) (hr : tr.NoReset)
    (hok : ∀ o ∈ tr.leaves, statMult.Num f o) :
    let C := tr.leaves.map statMult.qContrib
    ProductsFit f (mults C) →
    ∃ v out, tr.run = .ok v ∧ (statMult (Fl.ops f)).eval v = .ok (.fin out) ∧
      |out - clampTo (product C) (floorOf (-f.maxVal) C) (capOf f.maxVal C)| ≤
        (f.growth ((mults C).length - 1) - 1) * |product C| := by
  intro C hP
  obtain ⟨v, hv⟩ := Tree.run_total (D := statMult (Fl.ops f))
    (fun o v => by cases o <;> exact ⟨_, rfl⟩) (fun a b => ⟨_, rfl⟩) tr
  obtain ⟨h2, h3, h4⟩ := statMult.approx f hf tr hr hok v hv
  obtain ⟨m, hm⟩ := h2 hP
  refine ⟨v, _, hv, ?_, (clampTo_err m _ _ _).trans ?_⟩
  · simp only [hm.fin, h3, h4, Fl.min_fin, Fl.max_fin]; rfl
  · have := hm.err
    rw [← product_eq] at this
    exact this

/-- rounding to an integer changes a number by at most one -/
theorem Rounds.err {R : Rounding} {x : ℚ} {z : ℤ} (h : Rounds R x z) : |(z : ℚ) - x| ≤ 1 := by
  cases R with
  | truncate =>
    obtain ⟨h1, h2, h3⟩ := h
    rcases le_total 0 x with hx | hx <;> rcases le_total 0 (z : ℚ) with hz | hz
    · rw [abs_of_nonneg hx, abs_of_nonneg hz] at h1 h2
      rw [abs_le]; constructor <;> linarith
    · rw [abs_of_nonneg hx, abs_of_nonpos hz] at h1 h2
      rw [abs_le]
      rcases hx.eq_or_lt with h0 | h0
      · constructor <;> linarith
      · have : (z : ℚ) = 0 := by nlinarith
        constructor <;> linarith
    · rw [abs_of_nonpos hx, abs_of_nonneg hz] at h1 h2
      rw [abs_le]
      rcases hx.eq_or_lt with h0 | h0
      · constructor <;> linarith
      · have : (z : ℚ) = 0 := by nlinarith
        constructor <;> linarith
    · rw [abs_of_nonpos hx, abs_of_nonpos hz] at h1 h2
      rw [abs_le]; constructor <;> linarith
  | floor => obtain ⟨h1, h2⟩ := h; rw [abs_le]; constructor <;> linarith
  | ceil => obtain ⟨h1, h2⟩ := h; rw [abs_le]; constructor <;> linarith
  | round => rw [abs_sub_comm]; linarith [h.1]
  | truncateSigned =>
    obtain ⟨h1, h2, h3⟩ := h
    rw [abs_le]
    rcases lt_trichotomy x 0 with hx | hx | hx
    · obtain ⟨-, k1, k2⟩ := h3 hx
      rcases lt_or_ge (-1) x with hy | hy
      · rw [k1 hy]; push_cast; constructor <;> linarith
      · obtain ⟨k3, k4⟩ := k2 hy; constructor <;> linarith
    · rw [h1 hx, hx]; norm_num
    · obtain ⟨-, k1, k2⟩ := h2 hx
      rcases lt_or_ge x 1 with hy | hy
      · rw [k1 hy]; push_cast; constructor <;> linarith
      · obtain ⟨k3, k4⟩ := k2 hy; constructor <;> linarith

theorem statIntFl.approx (t : NumTy) (h : t.ovf = .panic) (f : Fmt) (hf : f.Normal) (R : Rounding)
    (tr : Tree (statIntFl t f R)) (hr : tr.NoReset) (hok : ∀ o ∈ tr.leaves, statIntFloatMul.Num f o)
    (v : StatIntFloatMul Fl) (hv : tr.run = .ok v) :
    ProductsFit f (mults (tr.leaves.map statIntFloatMul.contrib)) →
      ∃ m, ProdApprox f v.mult (mults (tr.leaves.map statIntFloatMul.contrib)) m := by
  refine Tree.run_rep (fun v L => ProductsFit f (mults (L.map statIntFloatMul.contrib)) →
      ∃ m, ProdApprox f v.mult (mults (L.map statIntFloatMul.contrib)) m) (statIntFloatMul.Num f) ?_ ?_ ?_ ?_
    tr v hr hok hv
  · exact fun _ => ⟨1, .one hf⟩
  · exact fun b _ _ => ⟨1, .one hf⟩
  · intro v L o v' hnb ho h2 e
    simp only [List.map_append, List.map_singleton, mults_append]
    cases o with
    | or x => exact x.elim
    | not x => exact x.elim
    | base x => exact absurd trivial hnb
    | add a =>
      simp only [StatOp.writeTo, Res.bind_eq_ok, NumTy.add, NumTy.fit_panic h, Except.ok.injEq] at e
      obtain ⟨x, ⟨rfl, -⟩, rfl⟩ := e
      simpa only [statIntFloatMul.contrib, mults, List.append_nil] using h2
    | mul m =>
      obtain ⟨q, rfl, hq⟩ := ho
      cases e
      simp only [statIntFloatMul.contrib, mults, Fl.toQ]
      intro hs
      obtain ⟨a, ha⟩ := h2 hs.of_append.1
      exact ha.mul hf (.single hq) hs
    | min b => cases e; simpa only [statIntFloatMul.contrib, mults, List.append_nil] using h2
    | max b => cases e; simpa only [statIntFloatMul.contrib, mults, List.append_nil] using h2
  · intro a b L K v a2 b2 e
    simp only [Res.bind_eq_ok, NumTy.add, NumTy.fit_panic h, Except.ok.injEq] at e
    obtain ⟨x, ⟨rfl, -⟩, y, rfl, rfl⟩ := e
    simp only [List.map_append, mults_append]
    intro hs
    obtain ⟨x, hx⟩ := a2 hs.of_append.1
    obtain ⟨y, hy⟩ := b2 hs.of_append.2
    exact hx.mul hf hy hs

/-- C84 for `StatIntFloatMul`: up to one for the final rounding to an integer -/
theorem C84_int_float_mul (t : NumTy) (h : t.ovf = .panic) (f : Fmt) (hf : f.Normal) (R : Rounding)
    (tr : Tree (statIntFl t f R)) (hr : tr.NoReset) (hok : ∀ o ∈ tr.leaves, statIntFloatMul.Num f o) :
    let C := tr.leaves.map statIntFloatMul.contrib
    let T : ℚ := (total C : ℤ)
    let n := (mults C).length + 2
    absSum (addends C) ≤ t.prim.hi → ProductsFit f (mults C) → |T| ≤ f.maxVal →
    f.growth n * (|T| * |product C|) ≤ f.maxVal →
    ∃ v out, tr.run = .ok v ∧ (statIntFl t f R).eval v = .ok out ∧
      |(out : ℚ) - clampTo (T * product C) (floorOf t.prim.lo C : ℤ) (capOf t.prim.hi C : ℤ)| ≤
        (f.growth n - 1) * (|T| * |product C|) + f.tiny + 1 := by
  intro C T n hS hP hT hE
  have hok' : ∀ o ∈ tr.leaves, statIntFloatMul.okOp o := by
    intro o ho
    have := hok o ho
    cases o with
    | mul m => obtain ⟨q, hq, -⟩ := this; exact ⟨q, hq⟩
    | or x => exact x.elim
    | not x => exact x.elim
    | _ => exact this
  have ha : ∀ a ∈ addends C, t.prim.InRange a := by
    intro a ha
    have key : ∀ L : List (StatOp (statIntFl t f R)), (∀ o ∈ L, statIntFloatMul.Num f o) →
        a ∈ addends (L.map statIntFloatMul.contrib) → t.prim.InRange a := by
      intro L
      induction L with
      | nil => intro _ h; simp [addends] at h
      | cons o L ih =>
        intro hL h
        have ho := hL o (by simp)
        have ih := ih fun o ho => hL o (by simp [ho])
        cases o with
        | or x => exact x.elim
        | not x => exact x.elim
        | add x =>
          simp only [List.map_cons, statIntFloatMul.contrib, addends, List.mem_cons] at h
          rcases h with rfl | h
          · exact ho
          · exact ih h
        | base x =>
          simp only [List.map_cons, statIntFloatMul.contrib, addends, List.mem_cons] at h
          rcases h with rfl | h
          · exact ho
          · exact ih h
        | _ => exact ih (by simpa [statIntFloatMul.contrib, addends] using h)
    exact key _ hok ha
  obtain ⟨v, -, hv, -, -⟩ := C62_no_overflow t f hf R tr hr ha hS
  obtain ⟨a1, a2, a3, a5, -⟩ := statIntFl.rep t h f hf R tr hr hok' v hv
  obtain ⟨m, hm⟩ := statIntFl.approx t h f hf R tr hr hok v hv hP
  obtain ⟨k, hk⟩ := Fmt.int_multiple hf (total C)
  obtain ⟨a, hra, -, hea⟩ := Fmt.rnd_multiple hf hT hk
  have hprod : product C = (mults C).prod := product_eq C
  have hsz : 0 ≤ |T| * |(mults C).prod| := by positivity
  have hexp : f.growth 1 * f.growth ((mults C).length - 1) * (1 + f.eps) ≤ f.growth n := by
    rw [← Fmt.growth_one, ← Fmt.growth_add, ← Fmt.growth_add]
    exact f.growth_mono (by omega)
  have hexp' : f.growth 1 * f.growth ((mults C).length - 1) ≤ f.growth n := by
    rw [← Fmt.growth_add]
    exact f.growth_mono (by omega)
  obtain ⟨r, hr', -, he⟩ := Fl.mul_approx hf (α := f.growth 1) (SA := |T|) (A := T)
    (by rw [Fmt.growth_one]; simpa using hea) hm.err le_rfl le_rfl (f.one_le_growth _) (f.one_le_growth _)
    ((mul_le_mul_of_nonneg_right hexp' hsz).trans (by rw [← hprod]; exact hE))
  obtain ⟨z, hz, hz'⟩ := Fl.apply_fin hf R r
  have e1 : Fl.ofInt f v.addend = .fin a := by rw [a1]; exact hra
  have hlo : t.prim.lo ≤ v.min := by rw [a2]; exact Contrib.le_floorOf _ _
  have hhi : v.max ≤ t.prim.hi := by rw [a3]; exact Contrib.capOf_le _ _
  refine ⟨v, clampTo z (floorOf t.prim.lo C) (capOf t.prim.hi C), hv, ?_, ?_⟩
  · simp only [e1, hm.fin, hr', hz, Res.bind_ok, Fl.toInt, Fl.truncQ_int, NumTy.max_eq, NumTy.min_eq, clampTo]
    rw [show floorOf t.prim.lo C = v.min from a2.symm, show capOf t.prim.hi C = v.max from a3.symm]
    congr 1
    omega
  · have hc : ((clampTo z (floorOf t.prim.lo C) (capOf t.prim.hi C) : ℤ) : ℚ) =
        clampTo (z : ℚ) (floorOf t.prim.lo C : ℤ) (capOf t.prim.hi C : ℤ) := by
      unfold clampTo; push_cast; rfl
    rw [hc]
    refine (clampTo_err _ _ _ _).trans ?_
    have h1 := hz'.err
    have h2 := abs_add_le ((z : ℚ) - r) (r - T * product C)
    rw [show (z : ℚ) - r + (r - T * product C) = z - T * product C by ring] at h2
    rw [← hprod] at he hsz
    have h3 : (f.growth 1 * f.growth ((mults C).length - 1) * (1 + f.eps) - 1) * (|T| * |product C|) ≤
        (f.growth n - 1) * (|T| * |product C|) := mul_le_mul_of_nonneg_right (by linarith) hsz
    linarith

/-! ### two orders -/

theorem Contrib.addends_perm {A M B : Type} {L K : List (Contrib A M B)} (h : L.Perm K) :
    (addends L).Perm (addends K) := by
  induction h with
  | nil => exact .refl _
  | cons c _ ih => cases c <;> simp [addends, ih]
  | swap c d l => cases c <;> cases d <;> simp [addends, List.Perm.swap]
  | trans _ _ ih1 ih2 => exact ih1.trans ih2
theorem Contrib.mults_perm {A M B : Type} {L K : List (Contrib A M B)} (h : L.Perm K) :
    (mults L).Perm (mults K) := by
  induction h with
  | nil => exact .refl _
  | cons c _ ih => cases c <;> simp [mults, ih]
  | swap c d l => cases c <;> cases d <;> simp [mults, List.Perm.swap]
  | trans _ _ ih1 ih2 => exact ih1.trans ih2
theorem absSum_perm {l k : List ℚ} (h : l.Perm k) : absSum l = absSum k := (h.map _).sum_eq
theorem SumsFit.perm {f : Fmt} {l k : List ℚ} (h : l.Perm k) (hs : SumsFit f l) : SumsFit f k := by
  unfold SumsFit at *; rw [← absSum_perm h, ← h.length_eq]; exact hs
theorem ProductsFit.perm {f : Fmt} {l k : List ℚ} (h : l.Perm k) (hs : ProductsFit f l) : ProductsFit f k := by
  unfold ProductsFit hiProd loProd at *
  rw [← (h.map _).prod_eq, ← (h.map fun m : ℚ => if m = 0 then 1 else min 1 |m|).prod_eq, ← h.length_eq]
  exact hs

/-- C84: two orders of assembling a `StatFloat` from the same contributions evaluate to floats that differ by at
most twice the accumulated rounding error. -/
theorem C84_float_order (f : Fmt) (hf : f.Normal) (s u : Tree (statFloat (Fl.ops f))) (hs : s.NoReset)
    (hu : u.NoReset) (hp : s.leaves.Perm u.leaves) (hok : ∀ o ∈ s.leaves, statFloat.Num f o) :
    let C := s.leaves.map statFloat.qContrib
    let size := absSum (addends C) * |product C|
    let n := (addends C).length + (mults C).length
    SumsFit f (addends C) → ProductsFit f (mults C) → f.growth n * size ≤ f.maxVal →
    ∃ v w x y, s.run = .ok v ∧ u.run = .ok w ∧ (statFloat (Fl.ops f)).eval v = .ok (.fin x) ∧
      (statFloat (Fl.ops f)).eval w = .ok (.fin y) ∧
      |x - y| ≤ 2 * ((f.growth n - 1) * size + f.tiny) := by
  intro C size n h1 h2 h3
  have hp' := hp.map statFloat.qContrib
  have pa := Contrib.addends_perm hp'
  have pm := Contrib.mults_perm hp'
  obtain ⟨v, x, hv, hx, ex⟩ := C84_float f hf s hs hok h1 h2 h3
  have hu' := C84_float f hf u hu fun o ho => hok o (hp.mem_iff.2 ho)
  simp only [← absSum_perm pa, ← product_perm hp', ← pa.length_eq, ← pm.length_eq, ← total_perm hp',
    ← floorOf_perm _ hp', ← capOf_perm _ hp'] at hu'
  obtain ⟨w, y, hw, hy, ey⟩ := hu' (h1.perm pa) (h2.perm pm) h3
  refine ⟨v, w, x, y, hv, hw, hx, hy, (sub_triangle x y _).trans ((add_le_add ex ey).trans (le_of_eq ?_))⟩
  ring

/-- the same for `StatFloatAdditive` -/
theorem C84_additive_order (f : Fmt) (hf : f.Normal) (s u : Tree (statFloatAdditive (Fl.ops f))) (hs : s.NoReset)
    (hu : u.NoReset) (hp : s.leaves.Perm u.leaves) (hok : ∀ o ∈ s.leaves, statFloatAdditive.Num f o) :
    let C := s.leaves.map statFloatAdditive.qContrib
    let size := absSum (addends C) * (absSum (mults C) + 1)
    let n := (addends C).length + (mults C).length + 1
    SumsFit f (addends C) → SumsFit f (mults C ++ [1]) → f.growth n * size ≤ f.maxVal →
    ∃ v w x y, s.run = .ok v ∧ u.run = .ok w ∧ (statFloatAdditive (Fl.ops f)).eval v = .ok (.fin x) ∧
      (statFloatAdditive (Fl.ops f)).eval w = .ok (.fin y) ∧
      |x - y| ≤ 2 * ((f.growth n - 1) * size + f.tiny) := by
  intro C size n h1 h2 h3
  have hp' := hp.map statFloatAdditive.qContrib
  have pa := Contrib.addends_perm hp'
  have pm := Contrib.mults_perm hp'
  obtain ⟨v, x, hv, hx, ex⟩ := C84_additive f hf s hs hok h1 h2 h3
  have hu' := C84_additive f hf u hu fun o ho => hok o (hp.mem_iff.2 ho)
  simp only [← absSum_perm pa, ← absSum_perm pm, ← multSum_perm hp', ← pa.length_eq, ← pm.length_eq,
    ← total_perm hp', ← floorOf_perm _ hp', ← capOf_perm _ hp'] at hu'
  obtain ⟨w, y, hw, hy, ey⟩ := hu' (h1.perm pa) (h2.perm (pm.append_right _)) h3
  refine ⟨v, w, x, y, hv, hw, hx, hy, (sub_triangle x y _).trans ((add_le_add ex ey).trans (le_of_eq ?_))⟩
  ring

/-- the same for `StatMult` -/
theorem C84_mult_order (f : Fmt) (hf : f.Normal) (s u : Tree (statMult (Fl.ops f))) (hs : s.NoReset)
    (hu : u.NoReset) (hp : s.leaves.Perm u.leaves) (hok : ∀ o ∈ s.leaves, statMult.Num f o) :
    let C := s.leaves.map statMult.qContrib
    ProductsFit f (mults C) →
    ∃ v w x y, s.run = .ok v ∧ u.run = .ok w ∧ (statMult (Fl.ops f)).eval v = .ok (.fin x) ∧
      (statMult (Fl.ops f)).eval w = .ok (.fin y) ∧
      |x - y| ≤ 2 * ((f.growth ((mults C).length - 1) - 1) * |product C|) := by
  intro C h1
  have hp' := hp.map statMult.qContrib
  have pm := Contrib.mults_perm hp'
  obtain ⟨v, x, hv, hx, ex⟩ := C84_mult f hf s hs hok h1
  have hu' := C84_mult f hf u hu fun o ho => hok o (hp.mem_iff.2 ho)
  simp only [← product_perm hp', ← pm.length_eq, ← floorOf_perm _ hp', ← capOf_perm _ hp'] at hu'
  obtain ⟨w, y, hw, hy, ey⟩ := hu' (h1.perm pm)
  refine ⟨v, w, x, y, hv, hw, hx, hy, (sub_triangle x y _).trans ((add_le_add ex ey).trans (le_of_eq ?_))⟩
  ring

/-- the same for `StatIntPercent` and the like, whose sums are exact and whose products and result are rounded -/
theorem C84_int_order (t : NumTy) (h : t.ovf = .panic) (f : Fmt) (hf : f.Normal) (R : Rounding)
    (s u : Tree (statIntFl t f R)) (hs : s.NoReset) (hu : u.NoReset) (hp : s.leaves.Perm u.leaves)
    (hok : ∀ o ∈ s.leaves, statIntFloatMul.Num f o) :
    let C := s.leaves.map statIntFloatMul.contrib
    let T : ℚ := (total C : ℤ)
    let n := (mults C).length + 2
    absSum (addends C) ≤ t.prim.hi → ProductsFit f (mults C) → |T| ≤ f.maxVal →
    f.growth n * (|T| * |product C|) ≤ f.maxVal →
    ∃ v w x y, s.run = .ok v ∧ u.run = .ok w ∧ (statIntFl t f R).eval v = .ok x ∧
      (statIntFl t f R).eval w = .ok y ∧
      |(x : ℚ) - y| ≤ 2 * ((f.growth n - 1) * (|T| * |product C|) + f.tiny + 1) := by
  intro C T n h1 h2 h3 h4
  have hp' := hp.map statIntFloatMul.contrib
  have pa := Contrib.addends_perm hp'
  have pm := Contrib.mults_perm hp'
  obtain ⟨v, x, hv, hx, ex⟩ := C84_int_float_mul t h f hf R s hs hok h1 h2 h3 h4
  have hu' := C84_int_float_mul t h f hf R u hu fun o ho => hok o (hp.mem_iff.2 ho)
  have hsum := (pa.map fun z : ℤ => |z|).sum_eq
  simp only [← product_perm hp', ← pm.length_eq, ← total_perm hp',
    ← floorOf_perm _ hp', ← capOf_perm _ hp'] at hu'
  obtain ⟨w, y, hw, hy, ey⟩ := hu' ((le_of_eq hsum.symm).trans h1) (h2.perm pm) h3 h4
  refine ⟨v, w, x, y, hv, hw, hx, hy, (sub_triangle (x : ℚ) y _).trans ((add_le_add ex ey).trans (le_of_eq ?_))⟩
  ring

/-- the hypotheses of C84 hold for everyday numbers: the addends of `C24_refuted`, and multipliers 1.5 and 0.25 -/
example : let C : List (Contrib ℚ ℚ ℚ) := [.add (2 ^ 24), .add 1, .add 1, .mul (3 / 2), .mul (1 / 4)]
    SumsFit .f32 (addends C) ∧ ProductsFit .f32 (mults C) ∧
    Fmt.f32.growth ((addends C).length + (mults C).length) * (absSum (addends C) * |product C|) ≤
      Fmt.f32.maxVal := by
  simp only [SumsFit, ProductsFit]
  refine ⟨?_, ⟨?_, ?_⟩, ?_⟩ <;> decide +kernel

/-- its operands are floats of the format -/
example : Fl.IsNum .f32 (.fin (3 / 2)) ∧ Fl.IsNum .f32 (.fin (2 ^ 24)) :=
  ⟨⟨_, rfl, 3, -1, by norm_num, by decide, by decide, by norm_num [abs_of_pos, Fmt.f32]⟩,
    ⟨_, rfl, 2 ^ 24, 0, by norm_num, by decide, by decide, by norm_num [abs_of_pos, Fmt.f32]⟩⟩

/-- For the sum of `C24_refuted` the bound of C84 is about 6; the two orders differ by 2. -/
example : 2 * ((Fmt.f32.growth 3 - 1) * (2 ^ 24 + 2) + Fmt.f32.tiny) < 61 / 10 := by decide +kernel

end BSQ
