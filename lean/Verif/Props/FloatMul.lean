import Verif.Spec.FloatMul
import Verif.Props.FloatPoint
import Verif.Props.Base
/-!
# C62: `StatIntFloatMul`, an integer stat with a float multiplier
-/
namespace BSQ
open Contrib

/-- joining two values does not depend on their order, for every integer type, float format and rounding -/
theorem C62_join_comm (t : NumTy) (f : Fmt) (R : Rounding) : JoinComm (statIntFl t f R) := by
  intro a b
  simp only [NumTy.add, Int.add_comm b.addend, Fl.mul_comm f b.mult, NumTy.max_eq, NumTy.min_eq, max_comm b.min,
    min_comm b.max]

/-- what assembled values satisfy: numbers of the integer type and a float of the format -/
structure StatIntFloatMul.WF (t : NumTy) (f : Fmt) (v : StatIntFloatMul Fl) : Prop where
  addend : t.prim.InRange v.addend
  min : t.prim.InRange v.min
  max : t.prim.InRange v.max
  mult : v.mult.Of f

/-- joining with the default changes nothing -/
theorem C62_default_unit (t : NumTy) (f : Fmt) (hf : f.Normal) (R : Rounding) :
    DefaultUnit (statIntFl t f R) (StatIntFloatMul.WF t f) := by
  intro v ⟨h1, h2, h3, h4⟩
  constructor <;>
  simp [NumTy.add, NumTy.fit_inRange h1, Fl.mul_one hf h4, Fl.one_mul hf h4, NumTy.max_eq, NumTy.min_eq,
    NumTy.minValue, NumTy.maxValue, h2.1, h3.2]

/-- C29 for `StatIntFloatMul` -/
theorem C29_int_float_mul (t : NumTy) (f : Fmt) (hf : f.Normal) (R : Rounding) :
    WriteIsJoin (statIntFl t f R) (StatIntFloatMul.WF t f) (fun o => match o with
      | .add a => t.prim.InRange a
      | .mul m => m.Of f
      | .min b => t.prim.InRange b
      | .max b => t.prim.InRange b
      | _ => True) := by
  intro o v hnb hok ⟨h1, h2, h3, h4⟩
  have h0 := t.prim.inRange_zero
  cases o with
  | or x => exact x.elim
  | not x => exact x.elim
  | base x => exact absurd trivial hnb
  | add a =>
    have ha : t.prim.InRange a := hok
    simp [StatOp.intoStat, StatOp.writeTo, NumTy.add, NumTy.fit_inRange ha, Fl.mul_one hf h4, NumTy.max_eq,
      NumTy.min_eq, NumTy.minValue, NumTy.maxValue, h2.1, h3.2]
  | mul m =>
    simp [StatOp.intoStat, StatOp.writeTo, NumTy.add, NumTy.fit_inRange h1, Fl.one_mul hf hok, NumTy.max_eq,
      NumTy.min_eq, NumTy.minValue, NumTy.maxValue, h2.1, h3.2]
  | min b =>
    have hb : t.prim.InRange b := hok
    simp [StatOp.intoStat, StatOp.writeTo, NumTy.add, NumTy.fit_inRange h1, Fl.mul_one hf h4, NumTy.max_eq,
      NumTy.min_eq, NumTy.minValue, NumTy.maxValue, h3.2, hb.1]
  | max b =>
    have hb : t.prim.InRange b := hok
    simp [StatOp.intoStat, StatOp.writeTo, NumTy.add, NumTy.fit_inRange h1, Fl.mul_one hf h4, NumTy.max_eq,
      NumTy.min_eq, NumTy.minValue, NumTy.maxValue, h2.1, hb.2]

theorem Contrib.product_singleton {A B : Type} (m : ℚ) : product ([.mul m] : List (Contrib A ℚ B)) = m := by
  simp [product]

theorem ExactProducts.mono {A B : Type} {f : Fmt} {C K : List (Contrib A ℚ B)} (h : ExactProducts f C) (hk : K.Subperm C) :
    ExactProducts f K := fun J hJ => h J (hJ.trans hk)

theorem Fl.mul_rep {f : Fmt} (hf : f.Normal) {a b : ℚ} (h : f.Rep (a * b)) :
    Fl.mul f (.fin a) (.fin b) = .fin (a * b) := by
  simp only [Fl.mul]
  exact f.rnd_rep hf h

/-- the state of a value assembled from exactly representable multipliers -/
theorem statIntFl.rep (t : NumTy) (h : t.ovf = .panic) (f : Fmt) (hf : f.Normal) (R : Rounding)
    (tr : Tree (statIntFl t f R)) (hr : tr.NoReset) (hok : ∀ o ∈ tr.leaves, statIntFloatMul.okOp o)
    (v : StatIntFloatMul Fl) (hv : tr.run = .ok v) :
    let C := tr.leaves.map statIntFloatMul.contrib
    v.addend = total C ∧ v.min = floorOf t.prim.lo C ∧ v.max = capOf t.prim.hi C ∧ t.prim.lo ≤ v.max ∧
      (ExactProducts f C → v.mult = .fin (product C)) := by
  refine Tree.run_rep (fun v L => let C := L.map statIntFloatMul.contrib
    v.addend = total C ∧ v.min = floorOf t.prim.lo C ∧ v.max = capOf t.prim.hi C ∧ t.prim.lo ≤ v.max ∧
      (ExactProducts f C → v.mult = .fin (product C))) statIntFloatMul.okOp ?_ ?_ ?_ ?_ tr v hr hok hv
  · exact ⟨rfl, rfl, rfl, t.prim.inRange_zero.1.trans t.prim.inRange_zero.2, fun _ => rfl⟩
  · intro b _
    exact ⟨by simp [total, statIntFloatMul.contrib], rfl, rfl,
      t.prim.inRange_zero.1.trans t.prim.inRange_zero.2, fun _ => rfl⟩
  · intro v L o v' hnb ho ⟨h1, h2, h3, h5, h4⟩ e
    have hsub : (L.map statIntFloatMul.contrib).Subperm
        (L.map statIntFloatMul.contrib ++ [statIntFloatMul.contrib o]) := (List.sublist_append_left _ _).subperm
    simp only [List.map_append, List.map_singleton, total_append, product_append, floorOf_snoc, capOf_snoc]
    cases o with
    | or x => exact x.elim
    | not x => exact x.elim
    | base x => exact absurd trivial hnb
    | add a =>
      simp only [StatOp.writeTo, Res.bind_eq_ok, NumTy.add, NumTy.fit_panic h, Except.ok.injEq] at e
      obtain ⟨x, ⟨rfl, -⟩, rfl⟩ := e
      exact ⟨by simp [h1, statIntFloatMul.contrib, total], h2, h3, h5, fun hx => by
        simp [h4 (hx.mono hsub), statIntFloatMul.contrib, product]⟩
    | mul m =>
      obtain ⟨q, rfl⟩ := ho
      cases e
      refine ⟨by simp [h1, statIntFloatMul.contrib, total], h2, h3, h5, fun hx => ?_⟩
      have := hx _ (List.Subperm.refl _)
      rw [product_append] at this
      simp only [h4 (hx.mono hsub), statIntFloatMul.contrib, Fl.toQ, product_singleton] at this ⊢
      exact Fl.mul_rep hf this
    | min b =>
      cases e
      exact ⟨by simp [h1, statIntFloatMul.contrib, total],
        by simp [h2, statIntFloatMul.contrib, floorOf, NumTy.max_eq, max_comm], h3, h5, fun hx => by
        simp [h4 (hx.mono hsub), statIntFloatMul.contrib, product]⟩
    | max b =>
      cases e
      exact ⟨by simp [h1, statIntFloatMul.contrib, total], h2,
        by simp [h3, statIntFloatMul.contrib, capOf, NumTy.min_eq, min_comm],
        by simp only [NumTy.min_eq]; exact le_min h5 (show t.prim.InRange b from ho).1, fun hx => by
        simp [h4 (hx.mono hsub), statIntFloatMul.contrib, product]⟩
  · intro a b L K v ⟨a1, a2, a3, a5, a4⟩ ⟨b1, b2, b3, b5, b4⟩ e
    simp only [Res.bind_eq_ok, NumTy.add, NumTy.fit_panic h, Except.ok.injEq] at e
    obtain ⟨x, ⟨rfl, -⟩, y, rfl, rfl⟩ := e
    simp only [List.map_append, total_append, product_append, floorOf_append, capOf_append, a1, b1, a2, b2, a3,
      b3, NumTy.max_eq, NumTy.min_eq, true_and]
    refine ⟨le_min (a3 ▸ a5) (b3 ▸ b5), fun hx => ?_⟩
    have := hx _ (List.Subperm.refl _)
    rw [product_append] at this
    rw [a4 (hx.mono (List.sublist_append_left _ _).subperm),
      b4 (hx.mono (List.sublist_append_right _ _).subperm)]
    exact Fl.mul_rep hf this

/-- C62, the part of order independence that always holds: the addend and the bounds of an assembled value are
the total and the tightest bounds of its contributions, whatever the multipliers. -/
theorem C62_addend_bounds (t : NumTy) (h : t.ovf = .panic) (f : Fmt) (hf : f.Normal) (R : Rounding)
    (tr : Tree (statIntFl t f R)) (hr : tr.NoReset) (hok : ∀ o ∈ tr.leaves, statIntFloatMul.okOp o)
    (v : StatIntFloatMul Fl) (hv : tr.run = .ok v) :
    let C := tr.leaves.map statIntFloatMul.contrib
    v.addend = total C ∧ v.min = floorOf t.prim.lo C ∧ v.max = capOf t.prim.hi C :=
  have r := statIntFl.rep t h f hf R tr hr hok v hv
  ⟨r.1, r.2.1, r.2.2.1⟩

/-- C62: permuted contributions assemble to the same value, provided no product of some of the multipliers
needs rounding.  Missing: multipliers whose products are rounded, refuted below. -/
theorem C62_unordered_partial (t : NumTy) (h : t.ovf = .panic) (f : Fmt) (hf : f.Normal) (R : Rounding)
    (s u : Tree (statIntFl t f R)) (hs : s.NoReset) (hu : u.NoReset)
    (hok : ∀ o ∈ s.leaves, statIntFloatMul.okOp o) (hp : s.leaves.Perm u.leaves)
    (hx : ExactProducts f (s.leaves.map statIntFloatMul.contrib)) (v w : StatIntFloatMul Fl)
    (hv : s.run = .ok v) (hw : u.run = .ok w) : v = w := by
  have hp' := hp.map statIntFloatMul.contrib
  obtain ⟨a1, a2, a3, -, a4⟩ := statIntFl.rep t h f hf R s hs hok v hv
  obtain ⟨b1, b2, b3, -, b4⟩ := statIntFl.rep t h f hf R u hu (fun o ho => hok o (hp.mem_iff.2 ho)) w hw
  have a4 := a4 hx
  have b4 := b4 (hx.mono hp'.symm.subperm)
  cases v; cases w
  simp only [StatIntFloatMul.mk.injEq]
  simp only at a1 a2 a3 a4 b1 b2 b3 b4
  exact ⟨by rw [a1, b1, total_perm hp'], by rw [a2, b2, floorOf_perm _ hp'], by rw [a3, b3, capOf_perm _ hp'],
    by rw [a4, b4, product_perm hp']⟩

/-- C62: evaluation returns total × product, rounded and clamped, provided the multipliers, the total and that
result are represented exactly.  Missing: results rounded by float arithmetic. -/
theorem C62_closed_form_partial (t : NumTy) (h : t.ovf = .panic) (f : Fmt) (hf : f.Normal) (R : Rounding)
    (tr : Tree (statIntFl t f R)) (hr : tr.NoReset) (hok : ∀ o ∈ tr.leaves, statIntFloatMul.okOp o)
    (hx : ExactProducts f (tr.leaves.map statIntFloatMul.contrib))
    (hT : f.Rep (total (tr.leaves.map statIntFloatMul.contrib) : ℤ))
    (hTP : f.Rep ((total (tr.leaves.map statIntFloatMul.contrib) : ℤ) *
      product (tr.leaves.map statIntFloatMul.contrib)))
    (v : StatIntFloatMul Fl) (hv : tr.run = .ok v) :
    let C := tr.leaves.map statIntFloatMul.contrib
    ∃ z : ℤ, Rounds R ((total C : ℤ) * product C) z ∧
      (statIntFl t f R).eval v = .ok (clampTo z (floorOf t.prim.lo C) (capOf t.prim.hi C)) := by
  obtain ⟨a1, a2, a3, a5, a4⟩ := statIntFl.rep t h f hf R tr hr hok v hv
  intro C
  obtain ⟨z, hz, hz'⟩ := Fl.apply_fin hf R ((total C : ℤ) * product C)
  refine ⟨z, hz', ?_⟩
  have e1 : Fl.ofInt f v.addend = .fin (total C : ℤ) := by rw [a1]; exact f.rnd_rep hf hT
  have hlo : t.prim.lo ≤ v.min := by rw [a2]; exact Contrib.le_floorOf _ _
  have hhi : v.max ≤ t.prim.hi := by rw [a3]; exact Contrib.capOf_le _ _
  have e2 : Fl.mul f (Fl.ofInt f v.addend) v.mult = .fin ((total C : ℤ) * product C) := by
    rw [e1, a4 hx]; exact Fl.mul_rep hf hTP
  simp only [e2, hz, Res.bind_ok, Fl.toInt, Fl.truncQ_int, NumTy.max_eq, NumTy.min_eq, clampTo]
  rw [show floorOf t.prim.lo C = v.min from a2.symm, show capOf t.prim.hi C = v.max from a3.symm]
  congr 1
  omega

/-- the numerator (at least one) and the denominator of a multiplier -/
def Contrib.numAbs : Contrib ℤ ℚ ℤ → ℕ
  | .mul m => max 1 m.num.natAbs
  | _ => 1
def Contrib.denom : Contrib ℤ ℚ ℤ → ℕ
  | .mul m => m.den
  | _ => 1

theorem Contrib.product_dyadic (K : List (Contrib ℤ ℚ ℤ)) (h : ∀ c ∈ K, ∃ j, c.denom = 2 ^ j) :
    ∃ (n : ℤ) (j : ℕ), product K = n / 2 ^ j ∧ n.natAbs ≤ (K.map numAbs).prod ∧ (K.map denom).prod = 2 ^ j ∧
      1 ≤ (K.map numAbs).prod := by
  induction K with
  | nil => exact ⟨1, 0, by simp [product], by simp, by simp, by simp⟩
  | cons c K ih =>
    obtain ⟨n, j, h1, h2, h3, h4⟩ := ih fun c hc => h c (by simp [hc])
    obtain ⟨i, hi⟩ := h c (by simp)
    cases c with
    | mul m =>
      simp only [denom] at hi
      refine ⟨m.num * n, i + j, ?_, ?_, ?_, ?_⟩
      · have : (m : ℚ) = m.num / 2 ^ i := by
          rw [← Nat.cast_ofNat, ← Nat.cast_pow, ← hi]; exact (Rat.num_div_den m).symm
        rw [product, h1, this]
        push_cast
        rw [pow_add, ← this]
        conv_lhs => rw [this]
        rw [div_mul_div_comm]
      · simp only [List.map_cons, List.prod_cons, Int.natAbs_mul, numAbs]
        exact Nat.mul_le_mul (le_max_right _ _) h2
      · simp only [List.map_cons, List.prod_cons, denom, hi, h3, pow_add]
      · simp only [List.map_cons, List.prod_cons, numAbs]
        exact Nat.mul_pos (by omega) h4
    | _ => exact ⟨n, j, by simpa [product] using h1, by simpa [numAbs] using h2, by simpa [denom] using h3,
        by simpa [numAbs] using h4⟩

/-- `ExactProducts` holds for dyadic multipliers (halves, quarters, whole numbers…) whose numerators multiply to
at most `2^p` and whose denominators multiply to at most `2^-emin` (`2^149` for `f32`). -/
theorem ExactProducts.of_dyadic {f : Fmt} (hf : f.Normal) (C : List (Contrib ℤ ℚ ℤ))
    (h : ∀ c ∈ C, ∃ j, c.denom = 2 ^ j) (hn : (C.map Contrib.numAbs).prod ≤ 2 ^ f.p)
    (hd : (C.map Contrib.denom).prod ≤ 2 ^ (-f.emin).toNat) : ExactProducts f C := by
  intro K ⟨L, hL, hK⟩
  have hmem : ∀ c ∈ K, c ∈ C := fun c hc => hK.subset (hL.mem_iff.2 hc)
  obtain ⟨n, j, h1, h2, h3, -⟩ := product_dyadic K fun c hc => h c (hmem c hc)
  have pos : ∀ g : Contrib ℤ ℚ ℤ → ℕ, (∀ c, 1 ≤ g c) → ∀ L : List (Contrib ℤ ℚ ℤ), 0 < (L.map g).prod :=
    fun g hg L => List.prod_pos (by simp only [List.mem_map]; rintro _ ⟨c, -, rfl⟩; exact hg c)
  have mono : ∀ g : Contrib ℤ ℚ ℤ → ℕ, (∀ c, 1 ≤ g c) → (K.map g).prod ≤ (C.map g).prod := fun g hg => by
    rw [← (hL.map g).prod_eq]
    exact Nat.le_of_dvd (pos g hg C) (hK.map g).prod_dvd_prod
  have mn := mono numAbs fun c => by cases c <;> simp [numAbs]
  have md := mono denom fun c => by
    cases c with
    | mul m => exact m.den_pos
    | _ => exact le_refl 1
  have hn' : n.natAbs ≤ 2 ^ f.p := h2.trans (mn.trans hn)
  have hj : j ≤ (-f.emin).toNat := by
    rw [h3] at md
    exact (Nat.pow_le_pow_iff_right (by norm_num)).1 (md.trans hd)
  have hn'' : |n| ≤ 2 ^ f.p := by
    rw [Int.abs_eq_natAbs]; exact_mod_cast hn'
  have hemin := hf.emin_neg
  refine ⟨n, -(j : ℤ), by rw [h1, zpow_neg, zpow_natCast, div_eq_mul_inv], hn'', by omega, ?_⟩
  rw [h1, abs_div, abs_of_pos (show (0 : ℚ) < 2 ^ j by positivity)]
  have hq : |(n : ℚ)| ≤ 2 ^ f.p := by exact_mod_cast hn''
  have h2j : (1 : ℚ) ≤ 2 ^ j := one_le_pow₀ (by norm_num)
  calc |(n : ℚ)| / 2 ^ j ≤ |(n : ℚ)| := div_le_self (abs_nonneg _) h2j
    _ ≤ 2 ^ f.p := hq
    _ < 2 ^ f.emax := pow_lt_pow_right₀ (by norm_num) hf.emax_big

/-- a base of 101 at `3/2` of its value and then halved, at most 70: every hypothesis above holds, and both
orders evaluate to `75.75` rounded to 76 and capped to 70 -/
def floatMulDemo : Tree (statIntFl ⟨.i32, .prim, .debug⟩ .f32 .round) :=
  .join (.op (.base (101 : Int)) (.mul (.fin (3 / 2)))) (.op (.op .dflt (.max (70 : Int))) (.mul (.fin (1 / 2))))
example : floatMulDemo.NoReset ∧ (∀ o ∈ floatMulDemo.leaves, statIntFloatMul.okOp o) ∧
    ExactProducts .f32 (floatMulDemo.leaves.map statIntFloatMul.contrib) ∧
    (floatMulDemo.run >>= fun v => (statIntFl ⟨.i32, .prim, .debug⟩ .f32 .round).eval v) = .ok (70 : Int) := by
  refine ⟨by simp [floatMulDemo, Tree.NoReset, StatOp.IsBase], ?_, .of_dyadic Fmt.normal_f32 _ ?_ ?_ ?_,
    by decide +kernel⟩
  · intro o ho
    simp only [floatMulDemo, Tree.leaves, List.nil_append, List.cons_append, List.mem_cons, List.not_mem_nil,
      or_false] at ho
    rcases ho with rfl | rfl | rfl | rfl
    · exact show IntTy.InRange _ _ by decide
    · exact ⟨_, rfl⟩
    · exact show IntTy.InRange _ _ by decide
    · exact ⟨_, rfl⟩
  · intro c hc
    simp only [floatMulDemo, Tree.leaves, List.nil_append, List.cons_append, List.map_cons, List.map_nil,
      List.mem_cons, List.not_mem_nil, or_false] at hc
    rcases hc with rfl | rfl | rfl | rfl
    · exact ⟨0, rfl⟩
    · exact ⟨1, by decide +kernel⟩
    · exact ⟨0, rfl⟩
    · exact ⟨1, by decide +kernel⟩
  · decide +kernel
  · decide +kernel

/-- C62 is false for general multipliers: `2^127 * 2^127` overflows to infinity, so the same four `f32`
multipliers (whose product is 1) turn a base of 7 into `i32::MAX` in one order and into 7 in another. -/
theorem C62_refuted :
    let D := statIntFl ⟨.i32, .prim, .debug⟩ .f32 .truncate
    let big : Fl := .fin (2 ^ 127)
    let small : Fl := .fin (1 / 2 ^ 127)
    let s : Tree D := .op (.op (.op (.op (.base (7 : Int)) (.mul big)) (.mul big)) (.mul small)) (.mul small)
    let u : Tree D := .op (.op (.op (.op (.base (7 : Int)) (.mul big)) (.mul small)) (.mul big)) (.mul small)
    s.leaves.Perm u.leaves ∧ (s.run >>= fun v => D.eval v) = .ok (2147483647 : Int) ∧
      (u.run >>= fun v => D.eval v) = .ok (7 : Int) := by
  refine ⟨?_, by decide +kernel, by decide +kernel⟩
  simp only [Tree.leaves, List.cons_append, List.nil_append]
  exact .cons _ (.cons _ (.swap _ _ _))

end BSQ
