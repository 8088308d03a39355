import Verif.Spec.RoundOff
import Verif.Proofs.Returns
import Mathlib.Tactic.NormNum
import Mathlib.Algebra.Order.Group.MinMax
/-! Helper lemmas about accumulated rounding errors. -/
namespace BSQ
open Contrib

namespace Fmt
variable {f : Fmt}

theorem eps_pos (f : Fmt) : 0 < f.eps := by unfold eps; positivity
theorem growth_pos (f : Fmt) (n : ℕ) : 0 < f.growth n := pow_pos (by linarith [f.eps_pos]) _
theorem one_le_growth (f : Fmt) (n : ℕ) : 1 ≤ f.growth n := one_le_pow₀ (by linarith [f.eps_pos])
theorem growth_mono (f : Fmt) {m n : ℕ} (h : m ≤ n) : f.growth m ≤ f.growth n :=
  pow_le_pow_right₀ (by linarith [f.eps_pos]) h
theorem growth_add (f : Fmt) (m n : ℕ) : f.growth (m + n) = f.growth m * f.growth n := pow_add _ _ _
theorem growth_one (f : Fmt) : f.growth 1 = 1 + f.eps := pow_one _
theorem tiny_pos (f : Fmt) : 0 < f.tiny := zpow_pos (by norm_num) _
theorem minNormal_pos (f : Fmt) : 0 < f.minNormal := zpow_pos (by norm_num) _

/-- rounding a number of at most the largest float gives a float -/
theorem rnd_finite (hf : f.Normal) {q : ℚ} (hq : |q| ≤ f.maxVal) :
    ∃ r, f.rnd q = .fin r ∧ |r - q| ≤ 2 ^ f.ulpExp q / 2 := by
  unfold rnd
  by_cases h0 : q = 0
  · subst h0
    have := zpow_pos (by norm_num : (0 : ℚ) < 2) (f.ulpExp 0)
    exact ⟨0, by simp, by simp; linarith⟩
  rw [if_neg h0]
  have h2e : (0 : ℚ) < 2 ^ f.ulpExp q := zpow_pos (by norm_num) _
  have hr : |(rne (q / 2 ^ f.ulpExp q) : ℚ) * 2 ^ f.ulpExp q| < 2 ^ f.emax := by
    rw [abs_mul, abs_of_pos h2e]
    have hlt : |q| < 2 ^ (Int.log 2 |q| + 1) := by
      exact_mod_cast Int.lt_zpow_succ_log_self (b := 2) (by norm_num) |q|
    have hle : (2 : ℚ) ^ Int.log 2 |q| ≤ |q| := by
      exact_mod_cast Int.zpow_log_le_self (b := 2) (r := |q|) (by norm_num) (abs_pos.2 h0)
    have hmax : f.maxVal < 2 ^ f.emax := by unfold maxVal; linarith [show (0 : ℚ) < 2 ^ f.emax / 2 ^ f.p by positivity]
    have hlog : Int.log 2 |q| < f.emax := by
      have : (2 : ℚ) ^ Int.log 2 |q| < 2 ^ (f.emax : ℤ) := by
        rw [zpow_natCast]; exact (hle.trans hq).trans_lt hmax
      exact (zpow_lt_zpow_iff_right₀ (by norm_num)).1 this
    by_cases hc : Int.log 2 |q| = f.emax - 1
    · have he : f.ulpExp q = f.emax - f.p := by
        unfold ulpExp
        have := hf.emax_big
        have := hf.emin_neg
        rw [max_eq_left (by omega)]; omega
      have hk : |q / 2 ^ f.ulpExp q| ≤ ((2 ^ f.p - 1 : ℤ) : ℚ) := by
        rw [abs_div, abs_of_pos h2e, div_le_iff₀ h2e, he]
        refine hq.trans (le_of_eq ?_)
        unfold maxVal
        rw [zpow_sub₀ (by norm_num), zpow_natCast, zpow_natCast]
        push_cast
        field_simp
      have := rne_le hk
      have hq' : |(rne (q / 2 ^ f.ulpExp q) : ℚ)| ≤ 2 ^ f.p - 1 := by exact_mod_cast this
      refine lt_of_le_of_lt (mul_le_mul_of_nonneg_right hq' h2e.le) ?_
      rw [he, zpow_sub₀ (by norm_num), zpow_natCast, zpow_natCast]
      refine lt_of_lt_of_le (mul_lt_mul_of_pos_right (sub_one_lt _) (by positivity)) (le_of_eq ?_)
      field_simp
    · have := rne_le (f.abs_le_ulp q)
      have hq' : |(rne (q / 2 ^ f.ulpExp q) : ℚ)| ≤ 2 ^ f.p := by exact_mod_cast this
      refine lt_of_le_of_lt (mul_le_mul_of_nonneg_right hq' h2e.le) ?_
      rw [← zpow_natCast, ← zpow_add₀ (by norm_num), ← zpow_natCast]
      refine zpow_lt_zpow_right₀ (by norm_num) ?_
      unfold ulpExp
      have := hf.emax_big
      have := hf.emin_neg
      rcases max_choice (Int.log 2 |q| + 1 - f.p) f.emin with h | h <;> rw [h] <;> omega
  rw [abs_lt] at hr
  simp only
  rw [if_neg (not_le.2 hr.2), if_neg (not_le.2 hr.1)]
  refine ⟨_, rfl, ?_⟩
  set x := q / 2 ^ f.ulpExp q with hx
  have hqx : q = x * 2 ^ f.ulpExp q := by rw [hx]; field_simp
  have hhalf : |x - rne x| ≤ 1 / 2 := by
    have h1 := Int.floor_le x
    have h2 := Int.lt_floor_add_one x
    have a := rne_near x ⌊x⌋
    have b := rne_near x (⌊x⌋ + 1)
    rw [abs_of_nonneg (a := x - ⌊x⌋) (by linarith)] at a
    push_cast at b
    rw [abs_of_nonpos (a := x - (⌊x⌋ + 1)) (by linarith)] at b
    linarith
  calc |(rne x : ℚ) * 2 ^ f.ulpExp q - q| = |x - rne x| * 2 ^ f.ulpExp q := by
        rw [show (rne x : ℚ) * 2 ^ f.ulpExp q - q = (rne x - x) * 2 ^ f.ulpExp q by rw [sub_mul, ← hqx],
          abs_mul, abs_of_pos h2e, abs_sub_comm]
    _ ≤ _ := by
        have := mul_le_mul_of_nonneg_right hhalf h2e.le
        linarith

theorem ulp_normal {q : ℚ} (h0 : q ≠ 0) (h : f.emin ≤ Int.log 2 |q| + 1 - f.p) :
    2 ^ f.ulpExp q / 2 ≤ f.eps * |q| := by
  have hle : (2 : ℚ) ^ Int.log 2 |q| ≤ |q| := by
    exact_mod_cast Int.zpow_log_le_self (b := 2) (r := |q|) (by norm_num) (abs_pos.2 h0)
  have : f.ulpExp q = Int.log 2 |q| + 1 - f.p := max_eq_left h
  rw [this, zpow_sub₀ (by norm_num), zpow_add₀ (by norm_num), zpow_natCast, eps]
  rw [zpow_one, mul_div_assoc, mul_div_assoc, div_div]
  calc _ = 1 / 2 ^ f.p * (2 : ℚ) ^ Int.log 2 |q| := by field_simp
    _ ≤ _ := mul_le_mul_of_nonneg_left hle (by positivity)

/-- a result that does not underflow has a small relative error -/
theorem rnd_normal (hf : f.Normal) {q : ℚ} (hq : |q| ≤ f.maxVal) (hn : f.minNormal ≤ |q|) :
    ∃ r, f.rnd q = .fin r ∧ f.Rep r ∧ |r - q| ≤ f.eps * |q| := by
  obtain ⟨r, hr, he⟩ := rnd_finite hf hq
  have h0 : q ≠ 0 := by rintro rfl; simp at hn; linarith [f.minNormal_pos]
  refine ⟨r, hr, rep_of_rnd hf hr, he.trans (ulp_normal h0 ?_)⟩
  have : f.emin + f.p - 1 ≤ Int.log 2 |q| := by
    have hlt : |q| < 2 ^ (Int.log 2 |q| + 1) := by
      exact_mod_cast Int.lt_zpow_succ_log_self (b := 2) (by norm_num) |q|
    have := (zpow_lt_zpow_iff_right₀ (a := (2 : ℚ)) (by norm_num)).1 (hn.trans_lt hlt)
    omega
  omega

/-- in general there is also the error of underflow -/
theorem rnd_any (hf : f.Normal) {q : ℚ} (hq : |q| ≤ f.maxVal) :
    ∃ r, f.rnd q = .fin r ∧ f.Rep r ∧ |r - q| ≤ f.eps * |q| + f.tiny := by
  have ht := f.tiny_pos
  have hp := mul_nonneg f.eps_pos.le (abs_nonneg q)
  by_cases h0 : q = 0
  · subst h0
    have h1 : f.rnd 0 = .fin 0 := by simp [rnd]
    exact ⟨0, h1, rep_of_rnd hf h1, by simpa using ht.le⟩
  obtain ⟨r, hr, he⟩ := rnd_finite hf hq
  refine ⟨r, hr, rep_of_rnd hf hr, he.trans ?_⟩
  rcases le_total f.emin (Int.log 2 |q| + 1 - f.p) with h | h
  · linarith [ulp_normal h0 h]
  · rw [show f.ulpExp q = f.emin from max_eq_right h,
      show (2 : ℚ) ^ f.emin / 2 = f.tiny by rw [tiny, zpow_sub₀ (by norm_num), zpow_one]]
    linarith

/-- multiples of the least positive float do not underflow -/
theorem rnd_multiple (hf : f.Normal) {q : ℚ} (hq : |q| ≤ f.maxVal) {k : ℤ} (hk : q = k * 2 ^ f.emin) :
    ∃ r, f.rnd q = .fin r ∧ f.Rep r ∧ |r - q| ≤ f.eps * |q| := by
  have hp := mul_nonneg f.eps_pos.le (abs_nonneg q)
  have h2 : (0 : ℚ) < 2 ^ f.emin := zpow_pos (by norm_num) _
  have hmax : f.maxVal < 2 ^ f.emax := by
    unfold maxVal; linarith [show (0 : ℚ) < 2 ^ f.emax / 2 ^ f.p by positivity]
  by_cases h : q ≠ 0 ∧ f.emin ≤ Int.log 2 |q| + 1 - f.p
  · obtain ⟨r, hr, he⟩ := rnd_finite hf hq
    exact ⟨r, hr, rep_of_rnd hf hr, he.trans (ulp_normal h.1 h.2)⟩
  · have hrep : f.Rep q := by
      refine ⟨k, f.emin, hk, ?_, le_rfl, hq.trans_lt hmax⟩
      by_cases h0 : q = 0
      · have : k = 0 := by
          rw [h0] at hk
          have := (mul_eq_zero.1 hk.symm).resolve_right h2.ne'
          exact_mod_cast this
        subst this; simp
      · have hlog : Int.log 2 |q| + 1 ≤ f.p + f.emin := by
          by_contra hc
          exact h ⟨h0, by omega⟩
        have hlt : |q| < 2 ^ (Int.log 2 |q| + 1) := by
          exact_mod_cast Int.lt_zpow_succ_log_self (b := 2) (by norm_num) |q|
        have h1 := hlt.trans_le (zpow_le_zpow_right₀ (by norm_num) hlog)
        rw [hk, abs_mul, abs_of_pos h2, zpow_add₀ (by norm_num),
          zpow_natCast] at h1
        have h3 := (mul_lt_mul_iff_left₀ h2).1 h1
        exact_mod_cast h3.le
    exact ⟨q, rnd_rep hf hrep, hrep, by simpa using hp⟩

theorem Rep.multiple {q : ℚ} (h : f.Rep q) : ∃ k : ℤ, q = k * 2 ^ f.emin := by
  obtain ⟨m, e, rfl, -, he, -⟩ := h
  refine ⟨m * 2 ^ (e - f.emin).toNat, ?_⟩
  push_cast
  rw [← zpow_natCast, Int.toNat_of_nonneg (by omega), mul_assoc, ← zpow_add₀ (by norm_num)]
  congr 2; ring

theorem int_multiple (hf : f.Normal) (z : ℤ) : ∃ k : ℤ, (z : ℚ) = k * 2 ^ f.emin := by
  refine ⟨z * 2 ^ (-f.emin).toNat, ?_⟩
  have := hf.emin_neg
  push_cast
  rw [← zpow_natCast, Int.toNat_of_nonneg (by omega), mul_assoc, ← zpow_add₀ (by norm_num)]
  simp

end Fmt

/-- the float is the exact sum up to rounding -/
structure SumApprox (f : Fmt) (x : Fl) (l : List ℚ) (q : ℚ) : Prop where
  fin : x = .fin q
  rep : f.Rep q
  err : |q - l.sum| ≤ (f.growth (l.length - 1) - 1) * absSum l

/-- the float is the exact product up to rounding -/
structure ProdApprox (f : Fmt) (x : Fl) (l : List ℚ) (q : ℚ) : Prop where
  fin : x = .fin q
  rep : f.Rep q
  err : |q - l.prod| ≤ (f.growth (l.length - 1) - 1) * |l.prod|

section
variable {f : Fmt} {l k : List ℚ} {x y : Fl} {a b : ℚ}

theorem absSum_nonneg_q (l : List ℚ) : 0 ≤ absSum l := absSum_nonneg l

theorem SumApprox.abs_le (h : SumApprox f x l a) : |a| ≤ f.growth (l.length - 1) * absSum l := by
  have h1 := h.err
  have h2 := abs_sum_le l
  have h3 : |a| ≤ |a - l.sum| + |l.sum| := by simpa using abs_add_le (a - l.sum) l.sum
  linarith

theorem SumApprox.nil (h : SumApprox f x [] a) : a = 0 := by
  have := h.err
  simp [absSum] at this
  exact this

theorem SumApprox.single (hq : f.Rep a) : SumApprox f (.fin a) [a] a :=
  ⟨rfl, hq, by simp [Fmt.growth]⟩

theorem SumsFit.of_append (h : SumsFit f (l ++ k)) : SumsFit f l ∧ SumsFit f k := by
  unfold SumsFit at *
  rw [List.length_append, absSum_append] at h
  have a1 := absSum_nonneg l
  have a2 := absSum_nonneg k
  have g := f.growth_pos (l.length + k.length)
  constructor
  · exact (mul_le_mul (f.growth_mono (by omega)) (by linarith) a1 g.le).trans h
  · exact (mul_le_mul (f.growth_mono (by omega)) (by linarith) a2 g.le).trans h

theorem SumApprox.add (hf : f.Normal) (hx : SumApprox f x l a) (hy : SumApprox f y k b)
    (h : SumsFit f (l ++ k)) : ∃ c, SumApprox f (Fl.add f x y) (l ++ k) c := by
  obtain ⟨f1, f2⟩ := h.of_append
  have s1 := absSum_nonneg l
  have s2 := absSum_nonneg k
  by_cases hl : l = []
  · subst hl
    have h0 := hx.nil
    subst h0
    rw [hx.fin, hy.fin]
    exact ⟨b, by simp only [Fl.add, zero_add]; exact Fmt.rnd_rep hf hy.rep, hy.rep, hy.err⟩
  by_cases hk : k = []
  · subst hk
    have h0 := hy.nil
    subst h0
    rw [hx.fin, hy.fin]
    refine ⟨a, by simp only [Fl.add, add_zero]; exact Fmt.rnd_rep hf hx.rep, hx.rep, ?_⟩
    simpa using hx.err
  have nl : 1 ≤ l.length := List.length_pos_iff.2 hl
  have nk : 1 ≤ k.length := List.length_pos_iff.2 hk
  obtain ⟨m, hm⟩ : ∃ m, (l ++ k).length = m + 2 := ⟨l.length + k.length - 2, by simp; omega⟩
  have ab : |a + b| ≤ f.growth m * absSum (l ++ k) := by
    rw [absSum_append, mul_add]
    refine (abs_add_le _ _).trans (add_le_add ?_ ?_)
    · exact hx.abs_le.trans (mul_le_mul_of_nonneg_right (f.growth_mono (by simp at hm; omega)) s1)
    · exact hy.abs_le.trans (mul_le_mul_of_nonneg_right (f.growth_mono (by simp at hm; omega)) s2)
  have hfit : |a + b| ≤ f.maxVal := ab.trans (le_trans
    (mul_le_mul_of_nonneg_right (f.growth_mono (by omega)) (absSum_nonneg _)) h)
  obtain ⟨i, hi⟩ := hx.rep.multiple
  obtain ⟨j, hj⟩ := hy.rep.multiple
  obtain ⟨r, hr, hrep, he⟩ := Fmt.rnd_multiple hf hfit (k := i + j) (by rw [hi, hj]; push_cast; ring)
  refine ⟨r, by rw [hx.fin, hy.fin]; exact hr, hrep, ?_⟩
  rw [hm, show m + 2 - 1 = m + 1 by omega, Fmt.growth_add, Fmt.growth_one, List.sum_append]
  have e1 : |a - l.sum| ≤ (f.growth m - 1) * absSum l := hx.err.trans
    (mul_le_mul_of_nonneg_right (by linarith [f.growth_mono (show l.length - 1 ≤ m by simp at hm; omega)]) s1)
  have e2 : |b - k.sum| ≤ (f.growth m - 1) * absSum k := hy.err.trans
    (mul_le_mul_of_nonneg_right (by linarith [f.growth_mono (show k.length - 1 ≤ m by simp at hm; omega)]) s2)
  have e3 : |r - (l.sum + k.sum)| ≤ |r - (a + b)| + (|a - l.sum| + |b - k.sum|) := by
    have := abs_add_le (r - (a + b)) ((a - l.sum) + (b - k.sum))
    have h2 := abs_add_le (a - l.sum) (b - k.sum)
    rw [show r - (a + b) + (a - l.sum + (b - k.sum)) = r - (l.sum + k.sum) by ring] at this
    linarith
  have e4 := mul_le_mul_of_nonneg_left ab f.eps_pos.le
  rw [absSum_append] at e4 ⊢
  linarith

/-! ### products -/

theorem ProdApprox.abs_le (h : ProdApprox f x l a) : |a| ≤ f.growth (l.length - 1) * |l.prod| := by
  have h1 := h.err
  have h3 : |a| ≤ |a - l.prod| + |l.prod| := by simpa using abs_add_le (a - l.prod) l.prod
  linarith

theorem ProdApprox.le_abs (h : ProdApprox f x l a) : (2 - f.growth (l.length - 1)) * |l.prod| ≤ |a| := by
  have h1 := h.err
  have h3 : |l.prod| ≤ |a - l.prod| + |a| := by
    have := abs_add_le (l.prod - a) a
    rw [abs_sub_comm] at this
    simpa using this
  linarith

theorem ProdApprox.nil (h : ProdApprox f x [] a) : a = 1 := by
  have := h.err
  simp [Fmt.growth] at this
  linarith

theorem ProdApprox.single (hq : f.Rep a) : ProdApprox f (.fin a) [a] a :=
  ⟨rfl, hq, by simp [Fmt.growth]⟩

theorem hiProd_append (l k : List ℚ) : hiProd (l ++ k) = hiProd l * hiProd k := by simp [hiProd]
theorem loProd_append (l k : List ℚ) : loProd (l ++ k) = loProd l * loProd k := by simp [loProd]
theorem one_le_hiProd (l : List ℚ) : 1 ≤ hiProd l := by
  induction l with
  | nil => simp [hiProd]
  | cons m l ih =>
    have : hiProd (m :: l) = max 1 |m| * hiProd l := by simp [hiProd]
    rw [this]
    nlinarith [le_max_left 1 |m|]
theorem loProd_pos (l : List ℚ) : 0 < loProd l := by
  induction l with
  | nil => simp [loProd]
  | cons m l ih =>
    have : loProd (m :: l) = (if m = 0 then 1 else min 1 |m|) * loProd l := by simp [loProd]
    rw [this]
    refine mul_pos ?_ ih
    split
    · norm_num
    · exact lt_min one_pos (abs_pos.2 ‹_›)
theorem loProd_le_one (l : List ℚ) : loProd l ≤ 1 := by
  induction l with
  | nil => simp [loProd]
  | cons m l ih =>
    have : loProd (m :: l) = (if m = 0 then 1 else min 1 |m|) * loProd l := by simp [loProd]
    rw [this]
    refine mul_le_one₀ ?_ (loProd_pos l).le ih
    split
    · exact le_rfl
    · exact min_le_left _ _
theorem prod_le_hiProd (l : List ℚ) : |l.prod| ≤ hiProd l := by
  induction l with
  | nil => simp [hiProd]
  | cons m l ih =>
    have : hiProd (m :: l) = max 1 |m| * hiProd l := by simp [hiProd]
    rw [this, List.prod_cons, abs_mul]
    exact mul_le_mul (le_max_right _ _) ih (abs_nonneg _) (le_trans zero_le_one (le_max_left _ _))
theorem loProd_le_prod (l : List ℚ) (h : l.prod ≠ 0) : loProd l ≤ |l.prod| := by
  induction l with
  | nil => simp [loProd]
  | cons m l ih =>
    have : loProd (m :: l) = (if m = 0 then 1 else min 1 |m|) * loProd l := by simp [loProd]
    rw [List.prod_cons] at h
    rw [this, List.prod_cons, abs_mul, if_neg (left_ne_zero_of_mul h)]
    exact mul_le_mul (min_le_right _ _) (ih (right_ne_zero_of_mul h)) (loProd_pos l).le (abs_nonneg _)

theorem ProductsFit.of_append (h : ProductsFit f (l ++ k)) : ProductsFit f l ∧ ProductsFit f k := by
  unfold ProductsFit at *
  rw [List.length_append, hiProd_append, loProd_append] at h
  obtain ⟨h1, h2⟩ := h
  have a1 := one_le_hiProd l
  have a2 := one_le_hiProd k
  have b1 := loProd_pos l
  have b2 := loProd_pos k
  have c1 := loProd_le_one l
  have c2 := loProd_le_one k
  have g := f.growth_pos (l.length + k.length)
  have hpos : 0 < 2 - f.growth (l.length + k.length) :=
    (mul_pos_iff_of_pos_right (mul_pos b1 b2)).1 (f.minNormal_pos.trans_le h2)
  refine ⟨⟨?_, ?_⟩, ?_, ?_⟩
  · exact (mul_le_mul (f.growth_mono (by omega)) (by nlinarith) (by linarith) g.le).trans h1
  · exact h2.trans (mul_le_mul (by linarith [f.growth_mono (show l.length ≤ l.length + k.length by omega)])
      (by nlinarith) (by positivity) (by linarith [f.growth_mono (show l.length ≤ l.length + k.length by omega)]))
  · exact (mul_le_mul (f.growth_mono (by omega)) (by nlinarith) (by linarith) g.le).trans h1
  · exact h2.trans (mul_le_mul (by linarith [f.growth_mono (show k.length ≤ l.length + k.length by omega)])
      (by nlinarith) (by positivity) (by linarith [f.growth_mono (show k.length ≤ l.length + k.length by omega)]))

/-- the error of a product -/
theorem mul_err {a b A B SA SB α β : ℚ} (ha : |a - A| ≤ (α - 1) * SA) (hb : |b - B| ≤ (β - 1) * SB)
    (hA : |A| ≤ SA) (hB : |B| ≤ SB) (hα : 1 ≤ α) (_hβ : 1 ≤ β) :
    |a * b - A * B| ≤ (α * β - 1) * (SA * SB) ∧ |a * b| ≤ α * β * (SA * SB) := by
  have sA : 0 ≤ SA := (abs_nonneg _).trans hA
  have sB : 0 ≤ SB := (abs_nonneg _).trans hB
  have hb' : |b| ≤ β * SB := by
    have : |b| ≤ |b - B| + |B| := by simpa using abs_add_le (b - B) B
    linarith
  have key : |a * b - A * B| ≤ (α * β - 1) * (SA * SB) := by
    have h1 : |a * b - A * B| ≤ |a - A| * |b| + |A| * |b - B| := by
      rw [← abs_mul, ← abs_mul, show a * b - A * B = (a - A) * b + A * (b - B) by ring]
      exact abs_add_le _ _
    have h2 := mul_le_mul ha hb' (abs_nonneg b) (mul_nonneg (by linarith) sA)
    have h3 := mul_le_mul hA hb (abs_nonneg _) sA
    refine h1.trans ((add_le_add h2 h3).trans (le_of_eq ?_))
    ring
  refine ⟨key, ?_⟩
  have h4 : |a * b| ≤ |a * b - A * B| + |A * B| := by simpa using abs_add_le (a * b - A * B) (A * B)
  have h5 : |A * B| ≤ SA * SB := by rw [abs_mul]; exact mul_le_mul hA hB (abs_nonneg _) sA
  linarith

theorem ProdApprox.mul (hf : f.Normal) (hx : ProdApprox f x l a) (hy : ProdApprox f y k b)
    (h : ProductsFit f (l ++ k)) : ∃ c, ProdApprox f (Fl.mul f x y) (l ++ k) c := by
  by_cases hl : l = []
  · subst hl
    have h0 := hx.nil
    subst h0
    rw [hx.fin, hy.fin]
    exact ⟨b, by simp only [Fl.mul, one_mul]; exact Fmt.rnd_rep hf hy.rep, hy.rep, hy.err⟩
  by_cases hk : k = []
  · subst hk
    have h0 := hy.nil
    subst h0
    rw [hx.fin, hy.fin]
    refine ⟨a, by simp only [Fl.mul, mul_one]; exact Fmt.rnd_rep hf hx.rep, hx.rep, ?_⟩
    simpa using hx.err
  have nl : 1 ≤ l.length := List.length_pos_iff.2 hl
  have nk : 1 ≤ k.length := List.length_pos_iff.2 hk
  set α := f.growth (l.length - 1) with hα
  set β := f.growth (k.length - 1) with hβ
  have a1 : 1 ≤ α := f.one_le_growth _
  have b1 : 1 ≤ β := f.one_le_growth _
  have hαβ : α * β * (1 + f.eps) = f.growth ((l ++ k).length - 1) := by
    rw [hα, hβ, ← Fmt.growth_one, ← Fmt.growth_add, ← Fmt.growth_add]
    congr 1; simp; omega
  have hle : α * β ≤ f.growth (l ++ k).length := by
    rw [hα, hβ, ← Fmt.growth_add]; exact f.growth_mono (by simp; omega)
  obtain ⟨e1, e2⟩ := mul_err hx.err hy.err le_rfl le_rfl a1 b1
  rw [← abs_mul, ← List.prod_append] at e1 e2
  have hfit : |a * b| ≤ f.maxVal := by
    refine e2.trans (le_trans ?_ h.1)
    exact mul_le_mul hle (prod_le_hiProd _) (abs_nonneg _) (f.growth_pos _).le
  have main : ∃ r, f.rnd (a * b) = .fin r ∧ f.Rep r ∧ |r - a * b| ≤ f.eps * |a * b| := by
    by_cases hz : (l ++ k).prod = 0
    · rw [hz] at e2
      have h0 : a * b = 0 := abs_nonpos_iff.1 (by simpa using e2)
      have hr : f.rnd 0 = .fin 0 := by simp [Fmt.rnd]
      exact ⟨0, by rw [h0]; exact hr, Fmt.rep_of_rnd hf hr, by rw [h0]; simp⟩
    · refine Fmt.rnd_normal hf hfit (h.2.trans ?_)
      have hpos : 0 < 2 - f.growth (l ++ k).length :=
        (mul_pos_iff_of_pos_right (loProd_pos _)).1 (f.minNormal_pos.trans_le h.2)
      calc _ ≤ (2 - f.growth (l ++ k).length) * |(l ++ k).prod| :=
            mul_le_mul_of_nonneg_left (loProd_le_prod _ hz) hpos.le
        _ ≤ (2 - α * β) * |(l ++ k).prod| := mul_le_mul_of_nonneg_right (by linarith) (abs_nonneg _)
        _ ≤ |a * b| := by
          have : |(l ++ k).prod| ≤ |a * b - (l ++ k).prod| + |a * b| := by
            have := abs_add_le ((l ++ k).prod - a * b) (a * b)
            rw [abs_sub_comm] at this
            simpa using this
          linarith
  obtain ⟨r, hr, hrep, he⟩ := main
  refine ⟨r, by rw [hx.fin, hy.fin]; exact hr, hrep, ?_⟩
  rw [← hαβ]
  have e3 : |r - (l ++ k).prod| ≤ |r - a * b| + |a * b - (l ++ k).prod| := by
    have := abs_add_le (r - a * b) (a * b - (l ++ k).prod)
    rwa [show r - a * b + (a * b - (l ++ k).prod) = r - (l ++ k).prod by ring] at this
  have e4 := mul_le_mul_of_nonneg_left e2 f.eps_pos.le
  linarith

/-- multiplying an approximate sum by an approximate factor -/
theorem Fl.mul_approx (hf : f.Normal) {A B SA SB α β : ℚ} (ha : |a - A| ≤ (α - 1) * SA)
    (hb : |b - B| ≤ (β - 1) * SB) (hA : |A| ≤ SA) (hB : |B| ≤ SB) (hα : 1 ≤ α) (hβ : 1 ≤ β)
    (hm : α * β * (SA * SB) ≤ f.maxVal) :
    ∃ r, Fl.mul f (.fin a) (.fin b) = .fin r ∧ f.Rep r ∧
      |r - A * B| ≤ (α * β * (1 + f.eps) - 1) * (SA * SB) + f.tiny := by
  obtain ⟨e1, e2⟩ := mul_err ha hb hA hB hα hβ
  obtain ⟨r, hr, hrep, he⟩ := Fmt.rnd_any hf (e2.trans hm)
  refine ⟨r, hr, hrep, ?_⟩
  have e3 : |r - A * B| ≤ |r - a * b| + |a * b - A * B| := by
    have := abs_add_le (r - a * b) (a * b - A * B)
    rwa [show r - a * b + (a * b - A * B) = r - A * B by ring] at this
  have e4 := mul_le_mul_of_nonneg_left e2 f.eps_pos.le
  linarith

/-- clamping does not enlarge an error -/
theorem clampTo_err (x y lo hi : ℚ) : |clampTo x lo hi - clampTo y lo hi| ≤ |x - y| := by
  unfold clampTo
  have h1 := abs_max_sub_max_le_max (min x hi) lo (min y hi) lo
  have h2 := abs_min_sub_min_le_max x hi y hi
  simp only [sub_self, abs_zero, abs_nonneg, max_eq_left] at h1 h2
  exact h1.trans h2

end
end BSQ
