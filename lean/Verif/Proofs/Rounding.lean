import Verif.Proofs.Frac
import Mathlib.Tactic.Linarith
/-! Helper lemmas: the rounding functions of fractions round as specified. -/
namespace BSQ
namespace Frac
variable {t : NumTy}

theorem toRat_nonneg {a : Frac} (h : 0 < a.den) : 0 ≤ a.toRat ↔ 0 ≤ a.num := by
  have e1 : (0 : ℚ) < a.den := by exact_mod_cast h
  rw [toRat, le_div_iff₀ e1]; simp

theorem toRat_neg {a : Frac} (h : 0 < a.den) : a.toRat < 0 ↔ a.num < 0 := by
  rw [← not_le, toRat_nonneg h, not_le]

/-- quotient and remainder of the truncating division -/
theorem tdiv_parts {a : Frac} (h : 0 < a.den) :
    a.toRat = (a.num.tdiv a.den : ℚ) + (a.num.tmod a.den : ℚ) / a.den ∧
    (0 ≤ a.num → 0 ≤ a.num.tdiv a.den ∧ 0 ≤ a.num.tmod a.den ∧ a.num.tmod a.den < a.den) ∧
    (a.num < 0 → a.num.tdiv a.den ≤ 0 ∧ a.num.tmod a.den ≤ 0 ∧ -a.den < a.num.tmod a.den) := by
  have e1 : (a.den : ℚ) ≠ 0 := by exact_mod_cast h.ne'
  refine ⟨?_, ?_, ?_⟩
  · have := Int.mul_tdiv_add_tmod a.num a.den
    have hq : (a.num : ℚ) = a.den * (a.num.tdiv a.den : ℤ) + (a.num.tmod a.den : ℤ) := by
      exact_mod_cast this.symm
    rw [toRat]
    conv_lhs => rw [hq]
    field_simp
  · intro hn
    exact ⟨Int.tdiv_nonneg hn h.le, Int.tmod_nonneg _ hn, Int.tmod_lt_of_pos _ h⟩
  · intro hn
    refine ⟨?_, ?_, ?_⟩
    · have := Int.tdiv_nonneg (a := -a.num) (b := a.den) (by omega) h.le
      rw [Int.neg_tdiv] at this; omega
    · have := Int.tmod_nonneg (a := -a.num) a.den (by omega)
      rw [Int.neg_tmod] at this; omega
    · have := Int.tmod_lt_of_pos (-a.num) h
      rw [Int.neg_tmod] at this; omega

/-- the fractional part is below one in absolute value -/
theorem fract_bounds {r d : Int} (h : 0 < d) :
    (0 ≤ r → r < d → 0 ≤ (r : ℚ) / d ∧ (r : ℚ) / d < 1) ∧
    (r ≤ 0 → -d < r → (r : ℚ) / d ≤ 0 ∧ -1 < (r : ℚ) / d) := by
  have e1 : (0 : ℚ) < d := by exact_mod_cast h
  constructor
  · intro h1 h2
    have h1' : (0 : ℚ) ≤ r := by exact_mod_cast h1
    have h2' : (r : ℚ) < d := by exact_mod_cast h2
    exact ⟨div_nonneg h1' e1.le, by rw [div_lt_one e1]; exact h2'⟩
  · intro h1 h2
    have h1' : (r : ℚ) ≤ 0 := by exact_mod_cast h1
    have h2' : -(d : ℚ) < r := by exact_mod_cast h2
    refine ⟨div_nonpos_of_nonpos_of_nonneg h1' e1.le, ?_⟩
    rw [lt_div_iff₀ e1]; linarith

theorem trunc_ok (h : t.ovf = .panic) {a r : Frac} (e : trunc t a = .ok r) :
    r = ⟨a.num.tdiv a.den, 1⟩ := by
  simp only [trunc, Res.bind_eq_ok, NumTy.div_eq_ok] at e
  obtain ⟨n, ⟨_, rfl, _⟩, e⟩ := e
  cases e; rfl

/-- enclosure of the truncated value -/
theorem trunc_cases {a : Frac} (h : 0 < a.den) :
    (0 ≤ a.toRat ∧ (0 : ℚ) ≤ a.num.tdiv a.den ∧ (a.num.tdiv a.den : ℚ) ≤ a.toRat ∧
      a.toRat < a.num.tdiv a.den + 1) ∨
    (a.toRat < 0 ∧ (a.num.tdiv a.den : ℚ) ≤ 0 ∧ a.toRat ≤ (a.num.tdiv a.den : ℚ) ∧
      (a.num.tdiv a.den : ℚ) - 1 < a.toRat) := by
  obtain ⟨hx, hp, hn⟩ := tdiv_parts h
  obtain ⟨b1, b2⟩ := fract_bounds (r := a.num.tmod a.den) h
  rcases le_or_gt 0 a.num with h0 | h0
  · obtain ⟨q0, r0, r1⟩ := hp h0
    obtain ⟨c1, c2⟩ := b1 r0 r1
    have q0' : (0 : ℚ) ≤ a.num.tdiv a.den := by exact_mod_cast q0
    exact Or.inl ⟨(toRat_nonneg h).2 h0, q0', by linarith, by linarith⟩
  · obtain ⟨q0, r0, r1⟩ := hn h0
    obtain ⟨c1, c2⟩ := b2 r0 r1
    have q0' : (a.num.tdiv a.den : ℚ) ≤ 0 := by exact_mod_cast q0
    exact Or.inr ⟨(toRat_neg h).2 h0, q0', by linarith, by linarith⟩

theorem rounds_trunc {a : Frac} (h : 0 < a.den) :
    Rounds .truncate a.toRat (a.num.tdiv a.den) := by
  simp only [Rounds]
  rcases trunc_cases h with ⟨h0, h1, h2, h3⟩ | ⟨h0, h1, h2, h3⟩
  · rw [abs_of_nonneg h0, abs_of_nonneg h1]
    exact ⟨h2, h3, mul_nonneg h1 h0⟩
  · rw [abs_of_neg h0, abs_of_nonpos h1]
    exact ⟨by linarith, by linarith, mul_nonneg_of_nonpos_of_nonpos h1 h0.le⟩

theorem lt_zero_iff {a : Frac} (h : 0 < a.den) : lt a ⟨0, 1⟩ = true ↔ a.num < 0 := by
  rw [lt_iff h Int.one_pos, toRat_int, Int.cast_zero, toRat_neg h]

theorem floor_ok (h : t.ovf = .panic) {a r : Frac} (ha : 0 < a.den) (e : floor t a = .ok r) :
    ∃ z : Int, r = ⟨z, 1⟩ ∧ Rounds .floor a.toRat z := by
  unfold floor at e; split at e
  · rename_i hlt
    rw [lt_zero_iff ha] at hlt
    simp only [Res.bind_eq_ok, NumTy.sub, NumTy.add, NumTy.fit_panic h, NumTy.div_eq_ok] at e
    obtain ⟨_, ⟨rfl, _⟩, _, ⟨rfl, _⟩, n, ⟨_, rfl, _⟩, e⟩ := e
    cases e
    refine ⟨_, rfl, ?_⟩
    have hneg : a.num - a.den + 1 ≤ 0 := by omega
    have h1 := Int.mul_tdiv_add_tmod (a.num - a.den + 1) a.den
    have h2 : (a.num - a.den + 1).tmod a.den ≤ 0 := by
      have := Int.tmod_nonneg (a := -(a.num - a.den + 1)) a.den (by omega)
      rw [Int.neg_tmod] at this; omega
    have h3 : -a.den < (a.num - a.den + 1).tmod a.den := by
      have := Int.tmod_lt_of_pos (-(a.num - a.den + 1)) ha
      rw [Int.neg_tmod] at this; omega
    generalize (a.num - a.den + 1).tdiv a.den = q at *
    generalize (a.num - a.den + 1).tmod a.den = r at *
    have e1 : (0 : ℚ) < a.den := by exact_mod_cast ha
    have k1 : a.den * q ≤ a.num := by omega
    have k2 : a.num < a.den * q + a.den := by omega
    have k1' : (a.den : ℚ) * q ≤ a.num := by exact_mod_cast k1
    have k2' : (a.num : ℚ) < a.den * q + a.den := by exact_mod_cast k2
    simp only [Rounds, toRat]
    rw [le_div_iff₀ e1, div_lt_iff₀ e1]
    constructor <;> linarith
  · rename_i hlt
    rw [lt_zero_iff ha] at hlt
    refine ⟨_, trunc_ok h e, ?_⟩
    simp only [Rounds]
    rcases trunc_cases ha with ⟨h0, h1, h2, h3⟩ | ⟨h0, h1, h2, h3⟩
    · exact ⟨h2, h3⟩
    · rw [toRat_neg ha] at h0; omega

theorem ceil_ok (h : t.ovf = .panic) {a r : Frac} (ha : 0 < a.den) (e : ceil t a = .ok r) :
    ∃ z : Int, r = ⟨z, 1⟩ ∧ Rounds .ceil a.toRat z := by
  unfold ceil at e; split at e
  · rename_i hlt
    rw [lt_zero_iff ha] at hlt
    refine ⟨_, trunc_ok h e, ?_⟩
    simp only [Rounds]
    rcases trunc_cases ha with ⟨h0, h1, h2, h3⟩ | ⟨h0, h1, h2, h3⟩
    · rw [toRat_nonneg ha] at h0; omega
    · exact ⟨h3, h2⟩
  · rename_i hlt
    rw [lt_zero_iff ha] at hlt
    simp only [Res.bind_eq_ok, NumTy.sub, NumTy.add, NumTy.fit_panic h, NumTy.div_eq_ok] at e
    obtain ⟨_, ⟨rfl, _⟩, _, ⟨rfl, _⟩, n, ⟨_, rfl, _⟩, e⟩ := e
    cases e
    refine ⟨_, rfl, ?_⟩
    have h1 := Int.mul_tdiv_add_tmod (a.num + a.den - 1) a.den
    have h2 := Int.tmod_nonneg (a := (a.num + a.den - 1)) a.den (by omega)
    have h3 := Int.tmod_lt_of_pos (a.num + a.den - 1) ha
    generalize (a.num + a.den - 1).tdiv a.den = q at *
    generalize (a.num + a.den - 1).tmod a.den = r at *
    have e1 : (0 : ℚ) < a.den := by exact_mod_cast ha
    have k1 : a.den * q - a.den < a.num := by omega
    have k2 : a.num ≤ a.den * q := by omega
    have k1' : (a.den : ℚ) * q - a.den < a.num := by exact_mod_cast k1
    have k2' : (a.num : ℚ) ≤ a.den * q := by exact_mod_cast k2
    simp only [Rounds, toRat]
    rw [lt_div_iff₀ e1, div_le_iff₀ e1]
    constructor <;> linarith

/-- integers add and subtract exactly -/
theorem addSub_int (h : t.ovf = .panic) {x y : Int} {r : Frac} :
    (add t ⟨x, 1⟩ ⟨y, 1⟩ = .ok r → r = ⟨x + y, 1⟩) ∧
    (sub t ⟨x, 1⟩ ⟨y, 1⟩ = .ok r → r = ⟨x - y, 1⟩) := by
  constructor
  · intro e
    obtain ⟨hw, hv⟩ := add_ok h (wf_int x) (wf_int y) e
    refine toRat_inj hw (wf_int _) ?_
    rw [hv, toRat_int, toRat_int, toRat_int]; push_cast; rfl
  · intro e
    obtain ⟨hw, hv⟩ := sub_ok h Int.one_pos Int.one_pos e
    refine toRat_inj hw (wf_int _) ?_
    rw [hv, toRat_int, toRat_int, toRat_int]; push_cast; rfl

theorem round_ok (h : t.ovf = .panic) {a r : Frac} (ha : a.WF) (e : round t a = .ok r) :
    ∃ z : Int, r = ⟨z, 1⟩ ∧ Rounds .round a.toRat z := by
  have hd := ha.pos
  have e1 : (0 : ℚ) < a.den := by exact_mod_cast hd
  simp only [round, absFract, halfBound, fract, Res.bind_eq_ok, NumTy.rem_eq_ok] at e
  obtain ⟨f', ⟨f, ⟨n, ⟨_, rfl, _⟩, hf⟩, hf'⟩, bound, ⟨half, hhalf, hbound⟩, tr, htr, e⟩ := e
  cases hf
  obtain ⟨hx, hp, hn⟩ := tdiv_parts hd
  have htr := trunc_ok h htr
  subst htr
  -- the fraction `f'` is the absolute value of the fractional part
  have hf'v : f'.toRat = |(a.num.tmod a.den : ℚ) / a.den| ∧ 0 < f'.den ∧
      (f'.den = 1 ∨ f'.den = a.den ∨ True) := by
    split at hf'
    · rename_i hlt
      rw [lt_zero_iff (a := ⟨a.num.tmod a.den, a.den⟩) hd] at hlt
      obtain ⟨hw, hv⟩ := sub_ok h Int.one_pos (b := ⟨a.num.tmod a.den, a.den⟩) hd hf'
      refine ⟨?_, hw.pos, by simp⟩
      have hneg : (a.num.tmod a.den : ℚ) / a.den < 0 := by
        apply div_neg_of_neg_of_pos _ e1; exact_mod_cast hlt
      rw [hv, toRat_int, abs_of_neg hneg]; simp [toRat]
    · rename_i hlt
      rw [lt_zero_iff (a := ⟨a.num.tmod a.den, a.den⟩) hd] at hlt
      cases hf'
      refine ⟨?_, hd, by simp⟩
      have hneg : 0 ≤ (a.num.tmod a.den : ℚ) / a.den := by
        apply div_nonneg _ e1.le; exact_mod_cast not_lt.1 hlt
      rw [abs_of_nonneg hneg]; rfl
  obtain ⟨hfv, hfd, -⟩ := hf'v
  have hfd' : (0 : ℚ) < f'.den := by exact_mod_cast hfd
  -- the comparison decides `1/2 ≤ f'`
  have hdec : bound ≤ f'.num ↔ (1 / 2 : ℚ) ≤ f'.toRat := by
    obtain ⟨_, rfl, _⟩ := NumTy.div_eq_ok.1 hhalf
    have hhalf' : f'.den.tdiv 2 = f'.den / 2 := Int.tdiv_eq_ediv_of_nonneg hfd.le
    rw [hhalf'] at hbound
    have key : bound ≤ f'.num ↔ f'.den ≤ 2 * f'.num := by
      split at hbound
      · rename_i hev; cases hbound; omega
      · rename_i hod
        rw [NumTy.add, NumTy.fit_panic h] at hbound
        obtain ⟨rfl, _⟩ := hbound
        omega
    rw [key, toRat, le_div_iff₀ hfd']
    constructor
    · intro hk
      have : (f'.den : ℚ) ≤ 2 * f'.num := by exact_mod_cast hk
      linarith
    · intro hk
      have : (f'.den : ℚ) ≤ 2 * f'.num := by linarith
      exact_mod_cast this
  rw [hfv] at hdec
  obtain ⟨b1, b2⟩ := fract_bounds (r := a.num.tmod a.den) hd
  split at e
  · rename_i hge
    have hge := hdec.1 hge
    split at e
    · rename_i hlt
      rw [lt_zero_iff hd] at hlt
      refine ⟨_, (addSub_int h).2 e, ?_⟩
      obtain ⟨q0, r0, r1⟩ := hn hlt
      obtain ⟨c1, c2⟩ := b2 r0 r1
      have q0' : (a.num.tdiv a.den : ℚ) ≤ 0 := by exact_mod_cast q0
      rw [abs_of_nonpos c1] at hge
      simp only [Rounds]
      push_cast
      have hxz : a.toRat - ((a.num.tdiv a.den : ℚ) - 1) = (a.num.tmod a.den : ℚ) / a.den + 1 := by
        rw [hx]; ring
      rw [hxz, abs_of_pos (by linarith), abs_of_neg (by linarith : a.toRat < 0), abs_of_neg (by linarith)]
      exact ⟨by linarith, fun hh => by linarith⟩
    · rename_i hlt
      rw [lt_zero_iff hd] at hlt
      refine ⟨_, (addSub_int h).1 e, ?_⟩
      obtain ⟨q0, r0, r1⟩ := hp (not_lt.1 hlt)
      obtain ⟨c1, c2⟩ := b1 r0 r1
      have q0' : (0 : ℚ) ≤ a.num.tdiv a.den := by exact_mod_cast q0
      rw [abs_of_nonneg c1] at hge
      simp only [Rounds]
      push_cast
      have hxz : a.toRat - ((a.num.tdiv a.den : ℚ) + 1) = (a.num.tmod a.den : ℚ) / a.den - 1 := by
        rw [hx]; ring
      rw [hxz, abs_of_neg (by linarith), abs_of_nonneg (by linarith : 0 ≤ a.toRat), abs_of_pos (by linarith)]
      exact ⟨by linarith, fun hh => by linarith⟩
  · rename_i hge
    rw [hdec, not_le] at hge
    cases e
    refine ⟨_, rfl, ?_⟩
    simp only [Rounds]
    have hxz : a.toRat - (a.num.tdiv a.den : ℚ) = (a.num.tmod a.den : ℚ) / a.den := by
      rw [hx]; ring
    rw [hxz]
    exact ⟨hge.le, fun hh => by linarith⟩

theorem apply_truncateSigned (a : Frac) : Rounding.apply .truncateSigned (ops t) a =
    (if lt ⟨0, 1⟩ a then (do let x ← trunc t a; .ok (max x ⟨1, 1⟩))
     else if lt a ⟨0, 1⟩ then (do let x ← trunc t a; let m ← sub t ⟨0, 1⟩ ⟨1, 1⟩; .ok (min x m))
     else .ok a) := rfl

/-- every rounding mode, applied to a fraction in lowest terms, gives the specified integer -/
theorem apply_ok (h : t.ovf = .panic) (R : Rounding) {a r : Frac} (ha : a.WF)
    (e : R.apply (ops t) a = .ok r) : ∃ z : Int, r = ⟨z, 1⟩ ∧ Rounds R a.toRat z := by
  cases R with
  | truncate => exact ⟨_, trunc_ok h e, rounds_trunc ha.pos⟩
  | floor => exact floor_ok h ha.pos e
  | ceil => exact ceil_ok h ha.pos e
  | round => exact round_ok h ha e
  | truncateSigned =>
    rw [apply_truncateSigned] at e
    have hd := ha.pos
    split at e
    · rename_i hlt
      rw [lt_iff Int.one_pos hd, toRat_int, Int.cast_zero] at hlt
      simp only [Res.bind_eq_ok] at e
      obtain ⟨x, hx, e⟩ := e
      have hx := trunc_ok h hx
      subst hx
      cases e
      have h0 : 0 ≤ a.num := (toRat_nonneg hd).1 hlt.le
      rcases trunc_cases hd with ⟨k0, k1, k2, k3⟩ | ⟨k0, _⟩
      swap
      · linarith
      have q0 : (0 : Int) ≤ a.num.tdiv a.den := by exact_mod_cast k1
      by_cases h1 : a.num.tdiv a.den = 0
      · refine ⟨1, ?_, ?_⟩
        · simp [max, lt, h1]
        · rw [h1] at k3
          simp only [Rounds, Int.cast_one]
          refine ⟨fun hh => by linarith, fun _ => ⟨le_rfl, fun _ => by trivial, fun hh => ?_⟩,
            fun hh => by linarith⟩
          push_cast at k3; linarith
      · have q1 : 1 ≤ a.num.tdiv a.den := by omega
        refine ⟨a.num.tdiv a.den, ?_, ?_⟩
        · simp only [max, lt, mul_one, decide_eq_true_eq]
          split
          · rfl
          · rw [show a.num.tdiv a.den = 1 by omega]
        · simp only [Rounds]
          have q1' : (1 : ℚ) ≤ a.num.tdiv a.den := by exact_mod_cast q1
          exact ⟨fun hh => by linarith, fun _ => ⟨q1, fun hh => by linarith, fun _ => ⟨k2, k3⟩⟩,
            fun hh => by linarith⟩
    · rename_i hlt
      rw [lt_iff Int.one_pos hd, toRat_int, Int.cast_zero, not_lt] at hlt
      split at e
      · rename_i hlt2
        rw [lt_iff hd Int.one_pos, toRat_int, Int.cast_zero] at hlt2
        simp only [Res.bind_eq_ok] at e
        obtain ⟨x, hx, m, hm, e⟩ := e
        have hx := trunc_ok h hx
        have hm := (addSub_int h).2 hm
        subst hx hm
        cases e
        rcases trunc_cases hd with ⟨k0, _⟩ | ⟨k0, k1, k2, k3⟩
        · linarith
        have q0 : a.num.tdiv a.den ≤ (0 : Int) := by exact_mod_cast k1
        by_cases h1 : a.num.tdiv a.den = 0
        · refine ⟨-1, ?_, ?_⟩
          · simp [min, lt, h1]
          · rw [h1] at k3
            simp only [Rounds]
            push_cast at k3 ⊢
            refine ⟨fun hh => by linarith, fun hh => by linarith,
              fun _ => ⟨by norm_num, fun _ => by norm_num, fun hh => ?_⟩⟩
            exfalso; linarith
        · have q1 : a.num.tdiv a.den ≤ -1 := by omega
          refine ⟨a.num.tdiv a.den, ?_, ?_⟩
          · simp only [min, lt, mul_one, decide_eq_true_eq]
            split
            · omega
            · rfl
          · simp only [Rounds]
            have q1' : (a.num.tdiv a.den : ℚ) ≤ -1 := by exact_mod_cast q1
            exact ⟨fun hh => by linarith, fun hh => by linarith,
              fun _ => ⟨q1, fun hh => by linarith, fun _ => ⟨k2, k3⟩⟩⟩
      · rename_i hlt2
        rw [lt_iff hd Int.one_pos, toRat_int, Int.cast_zero, not_lt] at hlt2
        cases e
        have hz : a.toRat = 0 := le_antisymm hlt hlt2
        have : a = ⟨0, 1⟩ := toRat_inj ha (wf_int 0) (by rw [hz, toRat_int]; simp)
        refine ⟨0, this, ?_⟩
        simp only [Rounds]
        refine ⟨fun _ => by trivial, fun hh => by linarith, fun hh => by linarith⟩

/-- the specification determines the rounded integer -/
theorem rounds_unique (R : Rounding) {x : ℚ} {z w : ℤ} (hz : Rounds R x z) (hw : Rounds R x w) : z = w := by
  have key : ∀ a b : ℤ, (a : ℚ) < b + 1 → (b : ℚ) < a + 1 → a = b := by
    intro a b h1 h2
    have h1' : a < b + 1 := by exact_mod_cast h1
    have h2' : b < a + 1 := by exact_mod_cast h2
    omega
  cases R with
  | truncate =>
    obtain ⟨a1, a2, a3⟩ := hz; obtain ⟨b1, b2, b3⟩ := hw
    rcases lt_trichotomy x 0 with h | h | h
    · have z0 : (z : ℚ) ≤ 0 := by by_contra hh; push Not at hh; nlinarith
      have w0 : (w : ℚ) ≤ 0 := by by_contra hh; push Not at hh; nlinarith
      rw [abs_of_nonpos z0, abs_of_neg h] at *
      rw [abs_of_nonpos w0] at *
      exact key _ _ (by linarith) (by linarith)
    · subst h
      rw [abs_zero] at *
      have hz0 := abs_nonneg (z : ℚ); have hw0 := abs_nonneg (w : ℚ)
      have hz1 : (z : ℚ) = 0 := abs_eq_zero.1 (le_antisymm a1 hz0)
      have hw1 : (w : ℚ) = 0 := abs_eq_zero.1 (le_antisymm b1 hw0)
      exact_mod_cast hz1.trans hw1.symm
    · have z0 : 0 ≤ (z : ℚ) := by by_contra hh; push Not at hh; nlinarith
      have w0 : 0 ≤ (w : ℚ) := by by_contra hh; push Not at hh; nlinarith
      rw [abs_of_nonneg z0, abs_of_pos h] at *
      rw [abs_of_nonneg w0] at *
      exact key _ _ (by linarith) (by linarith)
  | floor => exact key _ _ (by linarith [hz.1, hw.2]) (by linarith [hw.1, hz.2])
  | ceil => exact key _ _ (by linarith [hz.1, hw.2]) (by linarith [hw.1, hz.2])
  | round =>
    obtain ⟨a1, a2⟩ := hz; obtain ⟨b1, b2⟩ := hw
    rw [abs_le] at a1 b1
    by_contra hne
    rcases lt_or_gt_of_ne hne with hlt | hlt
    · have hle : (z : ℚ) + 1 ≤ w := by exact_mod_cast hlt
      have e1 : x - z = 1 / 2 := by linarith
      have e2 : x - w = -(1 / 2) := by linarith
      have c1 := a2 (by rw [e1]; norm_num)
      have c2 := b2 (by rw [e2]; norm_num)
      rw [abs_lt] at c1 c2
      rcases abs_cases (z : ℚ) with ⟨u, _⟩ | ⟨u, _⟩ <;> rcases abs_cases (w : ℚ) with ⟨v, _⟩ | ⟨v, _⟩ <;>
        rw [u] at c1 <;> rw [v] at c2
      · linarith
      · linarith
      · have hz1 : (z : ℚ) = x - 1/2 := by linarith
        have hw1 : (w : ℚ) = x + 1/2 := by linarith
        have hz0 : z < 0 := by exact_mod_cast ‹(z : ℚ) < 0›
        have hw0 : 0 ≤ w := by exact_mod_cast ‹(0 : ℚ) ≤ w›
        have hwz : w = z + 1 := by
          have : (w : ℚ) = z + 1 := by linarith
          exact_mod_cast this
        have hz2 : z = -1 := by omega
        rw [hz2] at hz1
        push_cast at hz1
        linarith
      · linarith
    · have hle : (w : ℚ) + 1 ≤ z := by exact_mod_cast hlt
      have e1 : x - w = 1 / 2 := by linarith
      have e2 : x - z = -(1 / 2) := by linarith
      have c1 := b2 (by rw [e1]; norm_num)
      have c2 := a2 (by rw [e2]; norm_num)
      rw [abs_lt] at c1 c2
      rcases abs_cases (w : ℚ) with ⟨u, _⟩ | ⟨u, _⟩ <;> rcases abs_cases (z : ℚ) with ⟨v, _⟩ | ⟨v, _⟩ <;>
        rw [u] at c1 <;> rw [v] at c2
      · linarith
      · linarith
      · have hz1 : (w : ℚ) = x - 1/2 := by linarith
        have hz0 : w < 0 := by exact_mod_cast ‹(w : ℚ) < 0›
        have hw0 : 0 ≤ z := by exact_mod_cast ‹(0 : ℚ) ≤ z›
        have hwz : z = w + 1 := by
          have : (z : ℚ) = w + 1 := by linarith
          exact_mod_cast this
        have hz2 : w = -1 := by omega
        rw [hz2] at hz1
        push_cast at hz1
        linarith
      · linarith
  | truncateSigned =>
    obtain ⟨a1, a2, a3⟩ := hz; obtain ⟨b1, b2, b3⟩ := hw
    rcases lt_trichotomy x 0 with h | h | h
    · obtain ⟨_, c2, c3⟩ := a3 h; obtain ⟨_, d2, d3⟩ := b3 h
      rcases lt_or_ge (-1) x with h1 | h1
      · rw [c2 h1, d2 h1]
      · exact key _ _ (by linarith [(c3 h1).2, (d3 h1).1]) (by linarith [(d3 h1).2, (c3 h1).1])
    · rw [a1 h, b1 h]
    · obtain ⟨_, c2, c3⟩ := a2 h; obtain ⟨_, d2, d3⟩ := b2 h
      rcases lt_or_ge x 1 with h1 | h1
      · rw [c2 h1, d2 h1]
      · exact key _ _ (by linarith [(c3 h1).1, (d3 h1).2]) (by linarith [(d3 h1).1, (c3 h1).2])

/-- an integer rounds to itself in every mode -/
theorem rounds_int (R : Rounding) (z : ℤ) : Rounds R (z : ℚ) z := by
  cases R <;> simp only [Rounds]
  · exact ⟨le_rfl, by linarith, mul_self_nonneg _⟩
  · exact ⟨le_rfl, by linarith⟩
  · exact ⟨by linarith, le_rfl⟩
  · rw [sub_self, abs_zero]; exact ⟨by norm_num, fun h => by norm_num at h⟩
  · refine ⟨fun h => by exact_mod_cast h, fun h => ?_, fun h => ?_⟩
    · have h' : 0 < z := by exact_mod_cast h
      refine ⟨by omega, fun h1 => ?_, fun _ => ⟨le_rfl, by linarith⟩⟩
      have h1' : z < 1 := by exact_mod_cast h1
      omega
    · have h' : z < 0 := by exact_mod_cast h
      refine ⟨by omega, fun h1 => ?_, fun _ => ⟨le_rfl, by linarith⟩⟩
      have h1' : -1 < z := by exact_mod_cast h1
      omega

end Frac
end BSQ
