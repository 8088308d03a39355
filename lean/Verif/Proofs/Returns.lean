import Verif.Spec.Magnitude
import Verif.Proofs.RatioReturns
import Verif.Proofs.FracStats
import Verif.Proofs.StatInt
/-! Helper lemmas: assembling and evaluating numeric stats returns when the magnitudes fit. -/
namespace BSQ
open Contrib

/-! ### rounding -/
namespace Frac
variable {t : NumTy}

theorem small_of_abs {x : Int} (h : |x| ≤ t.prim.hi) (hs : t.prim.signed = false → 0 ≤ x) : Small t x :=
  ⟨IntTy.inRange_of_abs h hs, h⟩

theorem Valid.nonneg {a : Frac} (ha : a.Valid t) (hs : t.prim.signed = false) : 0 ≤ a.num := by
  have := ha.2.1.1
  rwa [IntTy.lo_of_unsigned hs] at this

theorem tdiv_inRange {x d : Int} (hd : 0 < d) (hx : t.prim.InRange x) : t.prim.InRange (x.tdiv d) := by
  have h0 := t.prim.inRange_zero
  have hq : |x.tdiv d| ≤ |x| := by
    have := Int.natAbs_tdiv_le_natAbs x d
    rw [Int.abs_eq_natAbs, Int.abs_eq_natAbs]; exact_mod_cast this
  rcases le_or_gt 0 x with hs | hs
  · have h1 := Int.tdiv_nonneg hs hd.le
    rw [abs_of_nonneg hs, abs_of_nonneg h1] at hq
    exact ⟨h0.1.trans h1, hq.trans hx.2⟩
  · have h1 : x.tdiv d ≤ 0 := by
      have := Int.tdiv_nonneg (a := -x) (b := d) (by omega) hd.le
      rw [Int.neg_tdiv] at this; omega
    rw [abs_of_neg hs, abs_of_nonpos h1] at hq
    exact ⟨hx.1.trans (by omega), h1.trans h0.2⟩

theorem div_returns_pos {x d : Int} (hd : 0 < d) (hx : t.prim.InRange x) : t.div x d = .ok (x.tdiv d) := by
  simp [NumTy.div, hd.ne', tdiv_inRange hd hx]

theorem trunc_returns {a : Frac} (ha : a.Valid t) : trunc t a = .ok ⟨a.num.tdiv a.den, 1⟩ := by
  simp [trunc, div_returns_pos ha.1.pos ha.2.1]

theorem _root_.BSQ.IntTy.hi_odd {t : IntTy} (hb : 1 < t.bits) : t.hi % 2 = 1 := by
  obtain ⟨k, hk⟩ : ∃ k, t.bits = k + 2 := ⟨t.bits - 2, by omega⟩
  unfold IntTy.hi
  rw [hk]
  split
  · rw [show k + 2 - 1 = k + 1 by omega, pow_succ]; omega
  · rw [pow_succ]; omega

/-- the numerator rounding down or up passes through -/
def Reach (t : NumTy) (R : Rounding) (a : Frac) : Prop :=
  (R = .floor → a.num < 0 → t.prim.lo ≤ a.num - a.den) ∧ (R = .ceil → 0 ≤ a.num → a.num + a.den ≤ t.prim.hi)

/-- every rounding mode returns, as long as rounding down or up does not pass the ends of the type -/
theorem apply_returns (h : t.ovf = .panic) (hb : 1 < t.prim.bits) (R : Rounding) {a : Frac} (ha : a.Valid t)
    (hroom : Reach t R a) : ∃ r, R.apply (ops t) a = .ok r := by
  have hd := ha.1.pos
  have h0 := t.prim.inRange_zero
  have h1 := IntTy.inRange_one hb
  have hodd := IntTy.hi_odd hb
  obtain ⟨an1, an2⟩ := ha.2.1
  have ad2 := ha.2.2.2
  have h1' := h1.2
  have htr := trunc_returns ha
  have hqr := tdiv_inRange hd ha.2.1
  cases R with
  | truncate => exact ⟨_, htr⟩
  | floor =>
    show ∃ r, floor t a = .ok r
    unfold floor; split
    · rename_i hlt
      rw [lt_zero_iff hd] at hlt
      have hlo := hroom.1 rfl hlt
      have h0' := h0.2
      have r1 : t.prim.InRange (a.num - a.den) := ⟨hlo, by omega⟩
      have r2 : t.prim.InRange (a.num - a.den + 1) := ⟨by omega, by omega⟩
      simp only [NumTy.sub, NumTy.add, NumTy.fit_inRange r1, NumTy.fit_inRange r2, Res.bind_ok,
        div_returns_pos hd r2]
      exact ⟨_, rfl⟩
    · exact ⟨_, htr⟩
  | ceil =>
    show ∃ r, ceil t a = .ok r
    unfold ceil; split
    · exact ⟨_, htr⟩
    · rename_i hlt
      rw [lt_zero_iff hd, not_lt] at hlt
      have hhi := hroom.2 rfl hlt
      have h0' := h0.1
      have r1 : t.prim.InRange (a.num + a.den) := ⟨by omega, hhi⟩
      have r2 : t.prim.InRange (a.num + a.den - 1) := ⟨by omega, by omega⟩
      simp only [NumTy.sub, NumTy.add, NumTy.fit_inRange r1, NumTy.fit_inRange r2, Res.bind_ok,
        div_returns_pos hd r2]
      exact ⟨_, rfl⟩
  | round =>
    show ∃ r, round t a = .ok r
    obtain ⟨-, hp, hn⟩ := tdiv_parts hd
    have hgcd : Int.gcd (a.num.tmod a.den) a.den = 1 := by
      have e := Int.mul_tdiv_add_tmod a.num a.den
      have : Int.gcd a.num a.den = Int.gcd (a.num.tmod a.den) a.den := by
        conv_lhs => rw [← e, _root_.add_comm]
        rw [Int.gcd_add_mul_left_left]
      rw [← this]; exact ha.1.coprime
    have hf : ∃ f, absFract t a = .ok f ∧ f.Valid t ∧ (a.den = 1 → f = ⟨0, 1⟩) := by
      simp only [absFract, fract, NumTy.rem, hd.ne', if_false, hqr, if_true, Res.bind_ok]
      split
      · rename_i hlt
        rw [lt_zero_iff (a := ⟨a.num.tmod a.den, a.den⟩) hd] at hlt
        simp only at hlt
        have han : a.num < 0 := by
          by_contra hc
          have := (hp (not_lt.1 hc)).2.1
          omega
        have hlo := IntTy.lo_of_neg ha.2.1 han
        obtain ⟨-, m1, m2⟩ := hn han
        have hvf : (⟨a.num.tmod a.den, a.den⟩ : Frac).Valid t :=
          ⟨⟨hd, hgcd⟩, ⟨by simp only; omega, by simp only; omega⟩, ha.2.2⟩
        have hs : t.prim.signed = true := by
          by_contra hs
          have := ha.nonneg (by simpa using hs)
          omega
        have sm (x : Int) (hx : |x| ≤ t.prim.hi) : Small t x := small_of_abs hx (by simp [hs])
        obtain ⟨r, hr⟩ := sub_returns (valid_int hb h0) hvf
          ⟨sm _ (by simp only [zero_mul, abs_zero]; exact h0.2),
           sm _ (by simp only [_root_.mul_one]; rw [abs_le]; constructor <;> omega),
           sm _ (by simp only [zero_mul, _root_.mul_one]; rw [abs_le]; constructor <;> omega),
           sm _ (by simp only [_root_.one_mul]; rw [abs_le]; constructor <;> omega)⟩
        refine ⟨r, hr, ⟨?_, ?_⟩, fun e => ?_⟩
        · exact (sub_ok h Int.one_pos (b := ⟨a.num.tmod a.den, a.den⟩) hd hr).1
        · exact addSub_fits hb hr
        · omega
      · rename_i hlt
        rw [lt_zero_iff (a := ⟨a.num.tmod a.den, a.den⟩) hd] at hlt
        simp only [not_lt] at hlt
        have hlt2 : a.num.tmod a.den < a.den := Int.tmod_lt_of_pos _ hd
        refine ⟨_, rfl, ⟨⟨hd, hgcd⟩, ⟨?_, ?_⟩, ha.2.2⟩, fun e => ?_⟩
        · exact h0.1.trans hlt
        · simp only; omega
        · rw [e] at hlt hlt2 ⊢
          rw [show a.num.tmod 1 = 0 by omega]
    obtain ⟨f, hf, hfv, hfe⟩ := hf
    have hfd := hfv.1.pos
    have hhb : ∃ b, halfBound t f.den = .ok b ∧ (f.den = 1 → b = 1) := by
      simp only [halfBound, div_returns_pos (show (0:Int) < 2 by decide) hfv.2.2, Res.bind_ok]
      split
      · exact ⟨_, rfl, by omega⟩
      · have e : f.den.tdiv 2 = f.den / 2 := Int.tdiv_eq_ediv_of_nonneg hfd.le
        have := hfv.2.2.2
        have h0' := h0.1
        exact ⟨_, NumTy.fit_inRange ⟨by rw [e]; omega, by rw [e]; omega⟩, by rw [e]; omega⟩
    obtain ⟨b, hbd, hb1⟩ := hhb
    simp only [round, hf, Res.bind_ok, hbd, htr]
    split
    · rename_i hbf
      -- the fraction is not an integer
      have hd2 : 2 ≤ a.den := by
        by_contra hd2
        have := hfe (by omega)
        subst this
        have := hb1 rfl
        simp only at hbf
        omega
      have hm := Int.mul_tdiv_add_tmod a.num a.den
      split
      · rename_i hlt
        rw [lt_zero_iff hd] at hlt
        have hlo := IntTy.lo_of_neg ha.2.1 hlt
        have hs : t.prim.signed = true := by
          by_contra hs
          have := ha.nonneg (by simpa using hs)
          omega
        obtain ⟨q0, m1, m2⟩ := hn hlt
        have : 2 * a.num.tdiv a.den ≥ a.num := by nlinarith
        have sm (x : Int) (hx : |x| ≤ t.prim.hi) : Small t x := small_of_abs hx (by simp [hs])
        refine sub_returns (valid_int hb hqr) (valid_one hb) ⟨sm _ ?_, sm _ ?_, sm _ ?_, sm _ ?_⟩ <;>
          simp only [_root_.mul_one] <;> rw [abs_le] <;> constructor <;> omega
      · rename_i hlt
        rw [lt_zero_iff hd] at hlt
        obtain ⟨q0, m1, m2⟩ := hp (not_lt.1 hlt)
        have : 2 * a.num.tdiv a.den ≤ a.num := by nlinarith
        refine add_returns (valid_int hb hqr) (valid_one hb) ⟨small_of_abs ?_ ?_, small_of_abs ?_ ?_,
          small_of_abs ?_ ?_, small_of_abs ?_ ?_⟩ <;>
          simp only [_root_.mul_one] <;> first | (intro _; omega) | (rw [abs_le]; constructor <;> omega)
    · exact ⟨_, rfl⟩
  | truncateSigned =>
    rw [apply_truncateSigned, htr]
    split
    · exact ⟨_, rfl⟩
    · split
      · rename_i hlt
        rw [lt_zero_iff hd] at hlt
        have hs : t.prim.signed = true := by
          by_contra hs
          have := ha.nonneg (by simpa using hs)
          omega
        have sm (x : Int) (hx : |x| ≤ t.prim.hi) : Small t x := small_of_abs hx (by simp [hs])
        obtain ⟨m, hm⟩ := sub_returns (valid_int hb h0) (valid_one hb) (t := t)
          ⟨sm _ (by norm_num; omega), sm _ (by norm_num; omega), sm _ (by norm_num; omega),
            sm _ (by norm_num; omega)⟩
        simp only [Res.bind_ok, hm]
        exact ⟨_, rfl⟩
      · exact ⟨_, rfl⟩

theorem reach_of_returns (h : t.ovf = .panic) (R : Rounding) {a r : Frac} (ha : a.Valid t)
    (e : R.apply (ops t) a = .ok r) : Reach t R a := by
  have hd := ha.1.pos
  refine ⟨fun hR hlt => ?_, fun hR hge => ?_⟩
  · subst hR
    have e : floor t a = .ok r := e
    unfold floor at e
    rw [if_pos ((lt_zero_iff hd).2 hlt)] at e
    simp only [Res.bind_eq_ok, NumTy.sub, NumTy.fit_panic h] at e
    obtain ⟨_, ⟨rfl, h1⟩, _⟩ := e
    exact h1.1
  · subst hR
    have e : ceil t a = .ok r := e
    unfold ceil at e
    rw [if_neg (by rw [lt_zero_iff hd]; omega)] at e
    simp only [Res.bind_eq_ok, NumTy.add, NumTy.fit_panic h] at e
    obtain ⟨_, ⟨rfl, h1⟩, _⟩ := e
    exact h1.2

theorem reach_of_room (R : Rounding) {a : Frac} (ha : a.Valid t) (hroom : |a.num| + a.den ≤ t.prim.hi) :
    Reach t R a := by
  have hd := ha.1.pos
  have hab := abs_le.1 (show |a.num| ≤ t.prim.hi - a.den by omega)
  refine ⟨fun _ hlt => ?_, fun _ _ => by omega⟩
  have := IntTy.lo_of_neg ha.2.1 hlt
  omega

theorem trunc_fits (hb : 1 < t.prim.bits) {a r : Frac} (e : trunc t a = .ok r) : r.Fits t := by
  simp only [trunc, Res.bind_eq_ok] at e
  obtain ⟨n, hn, e⟩ := e
  cases e
  exact ⟨NumTy.inRange_of_div hn, IntTy.inRange_one hb⟩

/-- the rounded value is representable -/
theorem apply_fits (hb : 1 < t.prim.bits) (R : Rounding) {a r : Frac} (ha : a.Fits t)
    (e : R.apply (ops t) a = .ok r) : r.Fits t := by
  have h1 := IntTy.inRange_one hb
  cases R with
  | truncate => exact trunc_fits hb e
  | floor =>
    have e : floor t a = .ok r := e
    unfold floor at e; split at e
    · simp only [Res.bind_eq_ok] at e
      obtain ⟨_, _, _, _, n, hn, e⟩ := e
      cases e
      exact ⟨NumTy.inRange_of_div hn, h1⟩
    · exact trunc_fits hb e
  | ceil =>
    have e : ceil t a = .ok r := e
    unfold ceil at e; split at e
    · exact trunc_fits hb e
    · simp only [Res.bind_eq_ok] at e
      obtain ⟨_, _, _, _, n, hn, e⟩ := e
      cases e
      exact ⟨NumTy.inRange_of_div hn, h1⟩
  | round =>
    have e : round t a = .ok r := e
    simp only [round, Res.bind_eq_ok] at e
    obtain ⟨_, _, _, _, tr, htr, e⟩ := e
    split at e
    · split at e <;> exact addSub_fits hb e
    · cases e; exact trunc_fits hb htr
  | truncateSigned =>
    rw [apply_truncateSigned] at e
    split at e
    · simp only [Res.bind_eq_ok] at e
      obtain ⟨x, hx, e⟩ := e
      cases e
      unfold max; split
      · exact trunc_fits hb hx
      · exact ⟨h1, h1⟩
    · split at e
      · simp only [Res.bind_eq_ok] at e
        obtain ⟨x, hx, m, hm, e⟩ := e
        cases e
        unfold min; split
        · exact addSub_fits hb hm
        · exact trunc_fits hb hx
      · cases e; exact ha

theorem toInteger_returns (hb : 1 < t.prim.bits) {z : Int} (hz : t.prim.InRange z) :
    toInteger t ⟨z, 1⟩ = .ok z := by
  simp [toInteger, trunc_returns (valid_int hb hz)]

/-! ### sums and products of fractions -/

theorem mul_returns' {a b : Frac} (ha : a.Valid t) (hb : b.Valid t) (hn : |a.num| * |b.num| ≤ t.prim.hi)
    (hd : a.den * b.den ≤ t.prim.hi) : ∃ r, mul t a b = .ok r := by
  have pa := ha.1.pos; have pb := hb.1.pos
  refine mul_returns ha hb ⟨small_of_abs (by rw [abs_mul]; exact hn) fun hs => ?_,
    small_of_abs (by rw [abs_of_pos (mul_pos pa pb)]; exact hd) fun _ => (mul_pos pa pb).le⟩
  exact mul_nonneg (ha.nonneg hs) (hb.nonneg hs)

theorem add_returns' {a b : Frac} (ha : a.Valid t) (hb : b.Valid t)
    (hn : |a.num| * b.den + |b.num| * a.den ≤ t.prim.hi)
    (hd : a.den * b.den ≤ t.prim.hi) : ∃ r, add t a b = .ok r := by
  have pa := ha.1.pos; have pb := hb.1.pos
  have e1 : |a.num * b.den| = |a.num| * b.den := by rw [abs_mul, abs_of_pos pb]
  have e2 : |b.num * a.den| = |b.num| * a.den := by rw [abs_mul, abs_of_pos pa]
  have n1 : 0 ≤ |a.num| * b.den := by positivity
  have n2 : 0 ≤ |b.num| * a.den := by positivity
  refine add_returns ha hb ⟨small_of_abs (by omega) fun hs => mul_nonneg (ha.nonneg hs) pb.le,
    small_of_abs (by omega) fun hs => mul_nonneg (hb.nonneg hs) pa.le,
    small_of_abs ((abs_add_le _ _).trans (by omega)) fun hs =>
      add_nonneg (mul_nonneg (ha.nonneg hs) pb.le) (mul_nonneg (hb.nonneg hs) pa.le),
    small_of_abs (by rw [abs_of_pos (mul_pos pa pb)]; exact hd) fun _ => (mul_pos pa pb).le⟩

/-- the parts of a fraction in lowest terms are bounded by those of any way of writing it -/
theorem parts_le {f : Frac} (hf : f.WF) {n d : Int} (hd : 0 < d) (h : f.toRat = (n : ℚ) / d) :
    |f.num| ≤ |n| ∧ f.den ≤ d := by
  have hp := hf.pos
  have e1 : (f.den : ℚ) ≠ 0 := by exact_mod_cast hp.ne'
  have e2 : (d : ℚ) ≠ 0 := by exact_mod_cast hd.ne'
  rw [toRat, div_eq_div_iff e1 e2] at h
  have h : f.num * d = n * f.den := by exact_mod_cast h
  obtain ⟨k, rfl⟩ : f.den ∣ d := by
    refine IsCoprime.dvd_of_dvd_mul_left (y := f.num) ?_ ⟨n, by rw [h, _root_.mul_comm]⟩
    exact (Int.isCoprime_iff_gcd_eq_one.2 hf.coprime).symm
  have hk : 0 < k := by by_contra hk; nlinarith
  have hn : n = f.num * k := by
    have : (n - f.num * k) * f.den = 0 := by linarith
    rcases mul_eq_zero.1 this with h | h <;> omega
  subst hn
  rw [abs_mul, abs_of_pos hk]
  exact ⟨by nlinarith [abs_nonneg f.num], by nlinarith⟩

end Frac

theorem numSize_cons (q : ℚ) (l : List ℚ) : numSize (q :: l) = max 1 |q.num| * numSize l := by simp [numSize]
theorem denSize_cons (q : ℚ) (l : List ℚ) : denSize (q :: l) = q.den * denSize l := by simp [denSize]
theorem absSum_cons {A : Type} [AddCommGroup A] [Lattice A] (q : A) (l : List A) :
    absSum (q :: l) = |q| + absSum l := by simp [absSum]
theorem numSize_append (l k : List ℚ) : numSize (l ++ k) = numSize l * numSize k := by simp [numSize]
theorem denSize_append (l k : List ℚ) : denSize (l ++ k) = denSize l * denSize k := by simp [denSize]
theorem absSum_append {A : Type} [AddCommGroup A] [Lattice A] (l k : List A) :
    absSum (l ++ k) = absSum l + absSum k := by simp [absSum]

theorem numSize_pos (l : List ℚ) : 1 ≤ numSize l := by
  induction l with
  | nil => simp [numSize]
  | cons q l ih => rw [numSize_cons]; nlinarith [le_max_left 1 |q.num|]

theorem denSize_pos (l : List ℚ) : 1 ≤ denSize l := by
  induction l with
  | nil => simp [denSize]
  | cons q l ih =>
    rw [denSize_cons]
    have : (1 : ℤ) ≤ q.den := by exact_mod_cast q.den_pos
    nlinarith

theorem absSum_nonneg {A : Type} [AddCommGroup A] [LinearOrder A] [IsOrderedAddMonoid A] (l : List A) : 0 ≤ absSum l := by
  induction l with
  | nil => simp [absSum]
  | cons q l ih => rw [absSum_cons]; exact add_nonneg (abs_nonneg _) ih

theorem abs_sum_le {A : Type} [AddCommGroup A] [LinearOrder A] [IsOrderedAddMonoid A] (l : List A) :
    |l.sum| ≤ absSum l := by
  induction l with
  | nil => simp [absSum]
  | cons q l ih => rw [absSum_cons, List.sum_cons]; exact (abs_add_le _ _).trans (by gcongr)

/-- the product of a list over its naive denominator -/
theorem prod_eq_div (l : List ℚ) : ∃ n : ℤ, l.prod = (n : ℚ) / denSize l ∧ |n| ≤ numSize l := by
  induction l with
  | nil => exact ⟨1, by simp [denSize], by simp [numSize]⟩
  | cons q l ih =>
    obtain ⟨n, h1, h2⟩ := ih
    refine ⟨q.num * n, ?_, ?_⟩
    · rw [List.prod_cons, h1, denSize_cons]
      conv_lhs => rw [← Rat.num_div_den q]
      rw [div_mul_div_comm]; push_cast; rfl
    · rw [numSize_cons, abs_mul]
      exact mul_le_mul (le_max_right _ _) h2 (abs_nonneg _) (by positivity)

/-- the sum of a list over its naive denominator -/
theorem sum_eq_div (l : List ℚ) : ∃ n : ℤ, l.sum = (n : ℚ) / denSize l := by
  induction l with
  | nil => exact ⟨0, by simp⟩
  | cons q l ih =>
    obtain ⟨n, h1⟩ := ih
    refine ⟨q.num * denSize l + n * q.den, ?_⟩
    have h2 : (denSize l : ℚ) ≠ 0 := by have := denSize_pos l; exact_mod_cast (by omega : denSize l ≠ 0)
    have h3 : (q.den : ℚ) ≠ 0 := by exact_mod_cast q.den_ne_zero
    rw [List.sum_cons, h1, denSize_cons]
    conv_lhs => rw [← Rat.num_div_den q]
    rw [div_add_div _ _ h3 h2]; push_cast; ring_nf

theorem Frac.prod_parts {f : Frac} (hf : f.WF) {l : List ℚ} (h : f.toRat = l.prod) :
    |f.num| ≤ numSize l ∧ f.den ≤ denSize l := by
  obtain ⟨n, h1, h2⟩ := prod_eq_div l
  obtain ⟨k1, k2⟩ := Frac.parts_le hf (by have := denSize_pos l; omega) (h.trans h1)
  exact ⟨k1.trans h2, k2⟩

theorem Frac.sum_parts {f : Frac} (hf : f.WF) {l : List ℚ} (h : f.toRat = l.sum) :
    (|f.num| : ℚ) ≤ absSum l * denSize l ∧ f.den ≤ denSize l := by
  obtain ⟨n, h1⟩ := sum_eq_div l
  have hp : 0 < denSize l := by have := denSize_pos l; omega
  have hp' : (0 : ℚ) < denSize l := by exact_mod_cast hp
  obtain ⟨k1, k2⟩ := Frac.parts_le hf hp (h.trans h1)
  refine ⟨?_, k2⟩
  have k1' : (|f.num| : ℚ) ≤ |(n : ℚ)| := by exact_mod_cast k1
  refine k1'.trans ?_
  have : (n : ℚ) = l.sum * denSize l := by rw [h1]; field_simp
  rw [this, abs_mul, abs_of_pos hp']
  exact mul_le_mul_of_nonneg_right (abs_sum_le l) hp'.le

theorem ProdFits.of_append {t : NumTy} {l k : List ℚ} (h : ProdFits t (l ++ k)) : ProdFits t l ∧ ProdFits t k := by
  obtain ⟨h1, h2⟩ := h
  rw [numSize_append] at h1
  rw [denSize_append] at h2
  have := numSize_pos l; have := numSize_pos k
  have := denSize_pos l; have := denSize_pos k
  exact ⟨⟨by nlinarith, by nlinarith⟩, by nlinarith, by nlinarith⟩

theorem SumFits.of_append {t : NumTy} {l k : List ℚ} (h : SumFits t (l ++ k)) : SumFits t l ∧ SumFits t k := by
  obtain ⟨h1, h2⟩ := h
  rw [denSize_append] at h1 h2
  rw [absSum_append] at h1
  have n1 := denSize_pos l; have n2 := denSize_pos k
  have m1 : (1 : ℚ) ≤ denSize l := by exact_mod_cast n1
  have m2 : (1 : ℚ) ≤ denSize k := by exact_mod_cast n2
  have p1 := absSum_nonneg l
  have p2 := absSum_nonneg k
  push_cast at h1
  have q1 : absSum l * denSize l ≤ absSum l * (denSize l * denSize k) := by
    apply mul_le_mul_of_nonneg_left _ p1; nlinarith
  have q2 : absSum k * denSize k ≤ absSum k * (denSize l * denSize k) := by
    apply mul_le_mul_of_nonneg_left _ p2; nlinarith
  have q3 : 0 ≤ absSum l * (denSize l * denSize k : ℚ) := by positivity
  have q4 : 0 ≤ absSum k * (denSize l * denSize k : ℚ) := by positivity
  exact ⟨⟨by linarith, by nlinarith⟩, by linarith, by nlinarith⟩

theorem Frac.mul_of_prod {t : NumTy} {a b : Frac} (ha : a.Valid t) (hb : b.Valid t) {l k : List ℚ}
    (ea : a.toRat = l.prod) (eb : b.toRat = k.prod) (h : ProdFits t (l ++ k)) : ∃ r, Frac.mul t a b = .ok r := by
  obtain ⟨h1, h2⟩ := h
  rw [numSize_append] at h1
  rw [denSize_append] at h2
  obtain ⟨k1, k2⟩ := Frac.prod_parts ha.1 ea
  obtain ⟨k3, k4⟩ := Frac.prod_parts hb.1 eb
  exact Frac.mul_returns' ha hb
    (le_trans (mul_le_mul k1 k3 (abs_nonneg _) (by have := numSize_pos l; omega)) h1)
    (le_trans (mul_le_mul k2 k4 hb.1.pos.le (by have := denSize_pos l; omega)) h2)

theorem Frac.add_of_sum {t : NumTy} {a b : Frac} (ha : a.Valid t) (hb : b.Valid t) {l k : List ℚ}
    (ea : a.toRat = l.sum) (eb : b.toRat = k.sum) (h : SumFits t (l ++ k)) : ∃ r, Frac.add t a b = .ok r := by
  obtain ⟨h1, h2⟩ := h
  rw [absSum_append] at h1
  rw [denSize_append] at h1 h2
  obtain ⟨k1, k2⟩ := Frac.sum_parts ha.1 ea
  obtain ⟨k3, k4⟩ := Frac.sum_parts hb.1 eb
  have pa := ha.1.pos; have pb := hb.1.pos
  have k2' : (a.den : ℚ) ≤ denSize l := by exact_mod_cast k2
  have k4' : (b.den : ℚ) ≤ denSize k := by exact_mod_cast k4
  have pa' : (0 : ℚ) < a.den := by exact_mod_cast pa
  have pb' : (0 : ℚ) < b.den := by exact_mod_cast pb
  have p1 := absSum_nonneg l
  have p2 := absSum_nonneg k
  refine Frac.add_returns' ha hb ?_
    (le_trans (mul_le_mul k2 k4 pb.le (by have := denSize_pos l; omega)) h2)
  have q1 : (|a.num| : ℚ) * b.den ≤ absSum l * denSize l * denSize k :=
    mul_le_mul k1 k4' pb'.le (mul_nonneg p1 (pa'.le.trans k2'))
  have q2 : (|b.num| : ℚ) * a.den ≤ absSum k * denSize k * denSize l :=
    mul_le_mul k3 k2' pa'.le (mul_nonneg p2 (pb'.le.trans k4'))
  push_cast at h1
  have : |(a.num : ℚ)| * b.den + |(b.num : ℚ)| * a.den ≤ t.prim.hi := by linarith
  exact_mod_cast this

/-! ### lists of contributions -/
namespace Contrib
variable {A M B : Type}

theorem addends_append (L K : List (Contrib A M B)) : addends (L ++ K) = addends L ++ addends K := by
  induction L with
  | nil => rfl
  | cons c L ih => cases c <;> simp [addends, ih]

theorem mults_append (L K : List (Contrib A M B)) : mults (L ++ K) = mults L ++ mults K := by
  induction L with
  | nil => rfl
  | cons c L ih => cases c <;> simp [mults, ih]

theorem total_eq [AddMonoid A] (L : List (Contrib A M B)) : total L = (addends L).sum := by
  induction L with
  | nil => rfl
  | cons c L ih => cases c <;> simp [addends, total, ih]

theorem product_eq [Monoid M] (L : List (Contrib A M B)) : product L = (mults L).prod := by
  induction L with
  | nil => rfl
  | cons c L ih => cases c <;> simp [mults, product, ih]

theorem multSum_eq [AddMonoid M] (L : List (Contrib A M B)) : multSum L = (mults L).sum := by
  induction L with
  | nil => rfl
  | cons c L ih => cases c <;> simp [mults, multSum, ih]

theorem addends_asMul (L : List (Contrib A M B)) : addends (L.map asMul) = addends L := by
  induction L with
  | nil => rfl
  | cons c L ih => cases c <;> simp [addends, asMul, ih]

theorem mults_asMul (L : List (Contrib A M B)) : (mults (L.map asMul)).map Multiplicative.toAdd = mults L := by
  induction L with
  | nil => rfl
  | cons c L ih => cases c <;> simp [mults, asMul, ih]

end Contrib

theorem IntTy.inRange_sum {t : IntTy} {a b : Int} {L K : List Int} (ha : t.InRange a) (hb : t.InRange b)
    (ea : a = L.sum) (eb : b = K.sum) (hle : absSum L + absSum K ≤ t.hi) : t.InRange (a + b) := by
  refine IntTy.inRange_of_abs ((abs_add_le _ _).trans ?_) fun hs => ?_
  · have k1 := abs_sum_le L
    have k2 := abs_sum_le K
    rw [← ea] at k1
    rw [← eb] at k2
    omega
  · have k1 := ha.1
    have k2 := hb.1
    rw [IntTy.lo_of_unsigned hs] at k1 k2
    omega

namespace NumModel
variable {V : Type} {D : StatValue V} {A M B : Type} [AddCommMonoid A] [CommMonoid M] [LinearOrder B]
variable (N : NumModel D A M B)

/-- if every step returns as long as `Q` holds of the contributions so far, so does every assembly -/
theorem returns (Q : List (Contrib A M B) → Prop) (hQ : ∀ L K, Q (L ++ K) → Q L ∧ Q K)
    (hs : ∀ v L o, ¬ o.IsBase → N.okOp o → N.Rep v L → Q (L ++ [N.contrib o]) → ∃ v', o.writeTo v = .ok v')
    (hj : ∀ a b L K, N.Rep a L → N.Rep b K → Q (L ++ K) → ∃ c, D.join a b = .ok c) :
    ∀ tr : Tree D, tr.NoReset → (∀ o ∈ tr.leaves, N.okOp o) → Q (tr.leaves.map N.contrib) →
      ∃ v, tr.run = .ok v
  | .dflt, _, _, _ => ⟨_, rfl⟩
  | .base b, _, _, _ => ⟨_, rfl⟩
  | .op tr o, hn, hok, h => by
    simp only [Tree.leaves, List.map_append, List.map_cons, List.map_nil] at h
    have hok' : ∀ o ∈ tr.leaves, N.okOp o := fun o ho => hok o (by simp [Tree.leaves, ho])
    obtain ⟨w, hw⟩ := returns Q hQ hs hj tr hn.1 hok' (hQ _ _ h).1
    simp only [Tree.run, hw, Res.bind_ok]
    exact hs w _ o hn.2 (hok o (by simp [Tree.leaves])) (N.rep tr w hn.1 hok' hw) h
  | .join l r, hn, hok, h => by
    simp only [Tree.leaves, List.map_append] at h
    have hokl : ∀ o ∈ l.leaves, N.okOp o := fun o ho => hok o (by simp [Tree.leaves, ho])
    have hokr : ∀ o ∈ r.leaves, N.okOp o := fun o ho => hok o (by simp [Tree.leaves, ho])
    obtain ⟨a, ha⟩ := returns Q hQ hs hj l hn.1 hokl (hQ _ _ h).1
    obtain ⟨b, hb⟩ := returns Q hQ hs hj r hn.2 hokr (hQ _ _ h).2
    simp only [Tree.run, ha, hb, Res.bind_ok]
    exact hj a b _ _ (N.rep l a hn.1 hokl ha) (N.rep r b hn.2 hokr hb) h

end NumModel
end BSQ
