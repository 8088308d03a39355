import Verif.Proofs.FloatBits
import Verif.Model.Types.Float
import Verif.Model.Types.Int
import Verif.Spec.Unordered
/-!
# C121: floats as bit patterns
-/
namespace BSQ
variable {w p : ℕ}

namespace FBits

theorem limit_eq (w p : ℕ) :
    limit w p = 2 ^ (Fmt.ofBits w p).emax - 2 ^ (Fmt.ofBits w p).emax / 2 ^ ((Fmt.ofBits w p).p + 1) := rfl

/-- overflow happens exactly beyond the limit -/
theorem overflow (h : UsualBits w p) (q : ℚ) :
    ((∃ r, (Fmt.ofBits w p).rnd q = .fin r) ↔ |q| < limit w p) ∧
    (limit w p ≤ |q| → (Fmt.ofBits w p).rnd q = if decide (q < 0) then .ninf else .pinf) := by
  have hf := h.normal
  have pos : ∀ q : ℚ, 0 < q → ((∃ r, (Fmt.ofBits w p).rnd q = .fin r) ↔ q < limit w p) ∧
      (limit w p ≤ q → (Fmt.ofBits w p).rnd q = .pinf) := by
    intro q hq
    have h1 := Fmt.raw_top hf hq
    rw [← limit_eq] at h1
    have h2 := (Fmt.ofBits w p).raw_nonneg hq.le
    rw [Fmt.rnd_eq_raw]
    by_cases hc : 2 ^ (Fmt.ofBits w p).emax ≤ (Fmt.ofBits w p).raw q
    · rw [if_pos hc]
      exact ⟨⟨fun ⟨r, hr⟩ => (by cases hr), fun h => absurd (h1.1 hc) (not_le.2 h)⟩, fun _ => rfl⟩
    · have hB : (0 : ℚ) < 2 ^ (Fmt.ofBits w p).emax := by positivity
      rw [if_neg hc, if_neg (by linarith)]
      exact ⟨⟨fun _ => not_le.1 fun h => hc (h1.2 h), fun _ => ⟨_, rfl⟩⟩, fun h => absurd (h1.2 h) hc⟩
  have hlim : 0 < limit w p := by
    unfold limit
    have : (2 : ℚ) ^ 2 ^ (w - 1) / 2 ^ (p + 1) < 2 ^ 2 ^ (w - 1) :=
      div_lt_self (by positivity) (one_lt_pow₀ (by norm_num) (by omega))
    linarith
  rcases lt_trichotomy q 0 with hq | rfl | hq
  · obtain ⟨a, b⟩ := pos (-q) (by linarith)
    rw [Fmt.rnd_neg] at a b
    rw [abs_of_neg hq]
    refine ⟨⟨fun ⟨r, hr⟩ => a.1 ⟨-r, by rw [hr]; rfl⟩, fun hlt => ?_⟩, fun hle => ?_⟩
    · obtain ⟨r, hr⟩ := a.2 hlt
      cases hh : (Fmt.ofBits w p).rnd q with
      | fin x => exact ⟨x, rfl⟩
      | _ => rw [hh] at hr; cases hr
    · have := b hle
      cases hh : (Fmt.ofBits w p).rnd q <;> rw [hh] at this <;> simp [Fl.neg] at this
      simp [hq]
  · simp [Fmt.rnd, hlim]
  · obtain ⟨a, b⟩ := pos q hq
    rw [abs_of_pos hq]
    refine ⟨a, fun hle => ?_⟩
    rw [b hle]; simp [hq.le]

/-- of two numbers of a format with even significands, there is a number of the format strictly between them -/
theorem between (h : UsualBits w p) {c d : FBits w p} (hc : c.IsFin) (hd : d.IsFin) (hlt : c.val < d.val)
    (ec : c.man.val % 2 = 0) (ed : d.man.val % 2 = 0) :
    ∃ x : FBits w p, x.IsFin ∧ c.val < x.val ∧ x.val < d.val := by
  have hp := h.p2
  have signed : ∀ b : FBits w p, b.man.val % 2 = 0 → ∃ s : ℤ, b.val = s * 2 ^ b.scale ∧ |s| < 2 ^ p ∧ s % 2 = 0 := by
    intro b hb
    have h1 : ((b.sig : ℕ) : ℤ) < 2 ^ p := by exact_mod_cast b.sig_lt hp
    have h2 := b.sig_parity hp
    refine ⟨if b.neg then -(b.sig : ℤ) else b.sig, ?_, ?_, ?_⟩
    · unfold val; rw [mag_eq]; split <;> push_cast <;> ring
    · split
      · rw [abs_neg, abs_of_nonneg (by positivity)]; exact h1
      · rw [abs_of_nonneg (by positivity)]; exact h1
    · split <;> omega
  have mc := mag_lt h hc
  have md := mag_lt h hd
  rw [← abs_val] at mc md
  obtain ⟨s, hs, hs1, hs2⟩ := signed c ec
  obtain ⟨t, ht, ht1, ht2⟩ := signed d ed
  -- the number next to the one of smaller exponent
  have next : ∀ (k : ℤ) (e : ℤ), |k| ≤ 2 ^ p → (Fmt.ofBits w p).emin ≤ e → c.val < k * 2 ^ e → k * 2 ^ e < d.val →
      ∃ x : FBits w p, x.IsFin ∧ c.val < x.val ∧ x.val < d.val := by
    intro k e hk he h1 h2
    obtain ⟨x, x1, x2, -⟩ := of_rep h (q := k * 2 ^ e) ⟨k, e, rfl, hk, he, by
      rw [abs_lt] at mc md ⊢
      exact ⟨by show -(2 : ℚ) ^ (2 ^ (w - 1)) < _; linarith, by show _ < (2 : ℚ) ^ (2 ^ (w - 1)); linarith⟩⟩ false
    exact ⟨x, x1, by rw [x2]; exact h1, by rw [x2]; exact h2⟩
  have split2 : ∀ {a b : ℤ}, a ≤ b → ∃ n : ℤ, (2 : ℚ) ^ b = n * 2 ^ a := by
    intro a b hab
    refine ⟨2 ^ (b - a).toNat, ?_⟩
    push_cast
    rw [← zpow_natCast, ← zpow_add₀ (by norm_num)]; congr 1; omega
  rw [abs_lt] at hs1 ht1
  rcases le_total c.scale d.scale with hle | hle
  · obtain ⟨n, hn⟩ := split2 hle
    have hpos : (0 : ℚ) < 2 ^ c.scale := zpow_pos (by norm_num) _
    have h1 : s < t * n := by
      rw [hs, ht, hn, ← mul_assoc] at hlt
      exact_mod_cast (mul_lt_mul_iff_of_pos_right hpos).1 hlt
    have h2 : s + 1 < t * n := by
      have : (t * n) % 2 = 0 := by rw [Int.mul_emod, ht2]; simp
      omega
    refine next (s + 1) c.scale (abs_le.2 ⟨by omega, by omega⟩) c.emin_le_scale ?_ ?_
    · rw [hs]; exact mul_lt_mul_of_pos_right (by push_cast; linarith) hpos
    · rw [ht, hn, ← mul_assoc]; exact mul_lt_mul_of_pos_right (by exact_mod_cast h2) hpos
  · obtain ⟨n, hn⟩ := split2 hle
    have hpos : (0 : ℚ) < 2 ^ d.scale := zpow_pos (by norm_num) _
    have h1 : s * n < t := by
      rw [hs, ht, hn, ← mul_assoc] at hlt
      exact_mod_cast (mul_lt_mul_iff_of_pos_right hpos).1 hlt
    have h2 : s * n < t - 1 := by
      have : (s * n) % 2 = 0 := by rw [Int.mul_emod, hs2]; simp
      omega
    refine next (t - 1) d.scale (abs_le.2 ⟨by omega, by omega⟩) d.emin_le_scale ?_ ?_
    · rw [hs, hn, ← mul_assoc]; exact mul_lt_mul_of_pos_right (by exact_mod_cast h2) hpos
    · rw [ht]; exact mul_lt_mul_of_pos_right (by push_cast; linarith) hpos

/-- a number half way between two others that are nearest to it -/
theorem RoundsTo.unique (h : UsualBits w p) {q : ℚ} {c d : FBits w p} (hc : RoundsTo q c) (hd : RoundsTo q d) :
    c.denotes = d.denotes := by
  rcases hc with ⟨c1, c2, c3⟩ | ⟨c1, c2, c3⟩ <;> rcases hd with ⟨d1, d2, d3⟩ | ⟨d1, d2, d3⟩
  · rw [denotes_fin c2, denotes_fin d2]
    congr 1
    by_contra hne
    have key : ∀ {c d : FBits w p}, c.IsFin → d.IsFin →
        (∀ x : FBits w p, x.IsFin → |q - c.val| ≤ |q - x.val| ∧
          (x.val ≠ c.val → |q - c.val| = |q - x.val| → c.man.val % 2 = 0)) →
        (∀ x : FBits w p, x.IsFin → |q - d.val| ≤ |q - x.val| ∧
          (x.val ≠ d.val → |q - d.val| = |q - x.val| → d.man.val % 2 = 0)) → ¬ c.val < d.val := by
      intro c d c2 d2 c3 d3 hlt
      have e := le_antisymm (c3 d d2).1 (d3 c c2).1
      obtain ⟨x, x1, x2, x3⟩ := between h c2 d2 hlt ((c3 d d2).2 hlt.ne' e) ((d3 c c2).2 hlt.ne e.symm)
      have hx := (c3 x x1).1
      have hx' := (d3 x x1).1
      rcases le_total q x.val with hq | hq
      · rw [abs_of_nonpos (a := q - x.val) (by linarith)] at hx'
        have : |q - d.val| = -(q - d.val) := abs_of_nonpos (by linarith)
        rw [abs_of_nonpos (a := q - x.val) (by linarith)] at hx
        rw [this] at e hx'
        rw [e] at hx
        linarith
      · rw [abs_of_nonneg (a := q - x.val) (by linarith)] at hx hx'
        have : |q - c.val| = q - c.val := abs_of_nonneg (by linarith)
        rw [this] at hx
        linarith
    rcases lt_or_gt_of_ne hne with hlt | hlt
    · exact key c2 d2 c3 d3 hlt
    · exact key d2 c2 d3 c3 hlt
  · exact absurd c1 (not_lt.2 d1)
  · exact absurd d1 (not_lt.2 c1)
  · rw [denotes_inf c2, denotes_inf d2]
    have : c.neg = d.neg := by
      rw [Bool.eq_iff_iff, c3, d3]
    rw [this]

/-- the last bit of the pattern of a rounded number -/
theorem parity (h : UsualBits w p) {q : ℚ} (h0 : q ≠ 0) {c : FBits w p}
    (hv : c.val = (Fmt.ofBits w p).raw q) (he : rne (q / 2 ^ (Fmt.ofBits w p).ulpExp q) % 2 = 0) :
    c.man.val % 2 = 0 := by
  have hp := h.p2
  set f := Fmt.ofBits w p with hfdef
  have hu : f.emin ≤ f.ulpExp q := le_max_right _ _
  have hle : (rne (q / 2 ^ f.ulpExp q)).natAbs ≤ 2 ^ p := by
    have := rne_le (f.abs_le_ulp q)
    have h2 : (((rne (q / 2 ^ f.ulpExp q)).natAbs : ℕ) : ℤ) ≤ 2 ^ p := by rw [Int.natCast_natAbs]; exact this
    exact_mod_cast h2
  -- unless the number is subnormal, the leading bit is set
  have hlead : (rne (q / 2 ^ f.ulpExp q)).natAbs < 2 ^ (p - 1) → f.ulpExp q = f.emin := by
    intro hlt
    by_contra hne
    have hlog : f.ulpExp q = Int.log 2 |q| + 1 - p := by
      have : f.p = p := rfl
      unfold Fmt.ulpExp at hne ⊢
      rw [this] at *
      rcases max_choice (Int.log 2 |q| + 1 - (p : ℤ)) f.emin with h | h
      · exact h
      · exact absurd h hne
    have h2e : (0 : ℚ) < 2 ^ f.ulpExp q := zpow_pos (by norm_num) _
    have hB : ((2 ^ (p - 1) : ℤ) : ℚ) ≤ |q / 2 ^ f.ulpExp q| := by
      rw [abs_div, abs_of_pos h2e, le_div_iff₀ h2e]
      have h2 := Int.zpow_log_le_self (b := 2) (r := |q|) (by norm_num) (abs_pos.2 h0)
      refine le_trans (le_of_eq ?_) h2
      push_cast
      rw [hlog, ← zpow_natCast, ← zpow_add₀ (by norm_num)]
      congr 1; omega
    have : (2 ^ (p - 1) : ℤ) ≤ |rne (q / 2 ^ f.ulpExp q)| := by
      rcases le_total 0 (q / 2 ^ f.ulpExp q) with hh | hh
      · rw [abs_of_nonneg hh] at hB
        exact (le_rne_int hB).trans (le_abs_self _)
      · rw [abs_of_nonpos hh] at hB
        have := le_rne_int hB
        rw [rne_neg] at this
        exact this.trans (neg_le_abs _)
    have h3 : ((2 ^ (p - 1) : ℕ) : ℤ) ≤ (((rne (q / 2 ^ f.ulpExp q)).natAbs : ℕ) : ℤ) := by
      rw [Int.natCast_natAbs]; push_cast; exact this
    omega
  have hm : c.mag = ((rne (q / 2 ^ f.ulpExp q)).natAbs : ℚ) * 2 ^ f.ulpExp q := by
    rw [← abs_val, hv]
    unfold Fmt.raw
    rw [abs_mul, abs_of_pos (zpow_pos (by norm_num : (0 : ℚ) < 2) _)]
    congr 1
    rw [← Int.cast_natCast, Int.natCast_natAbs, Int.cast_abs]
  rw [mag_eq] at hm
  rw [← c.sig_parity hp]
  generalize rne (q / 2 ^ f.ulpExp q) = k at *
  rcases hle.eq_or_lt with e | hlt
  · have h2 := two_pred hp
    rw [e, h2] at hm
    have := (sig_unique (m := f.emin) (k' := 2 ^ (p - 1)) (e' := f.ulpExp q + 1) hp (c.sig_lt hp)
      (by have := Nat.two_pow_pos (p - 1); omega) c.emin_le_scale (by omega) scale_small
      (fun h => absurd h (lt_irrefl _)) (by rw [hm, zpow_add₀ (by norm_num)]; push_cast; ring)).1
    rw [this]; exact even_pred hp
  · have := (sig_unique (m := f.emin) hp (c.sig_lt hp) hlt c.emin_le_scale hu scale_small hlead hm).1
    rw [this]; omega

/-- what the model's rounding gives is what the rule of IEEE 754 asks for -/
theorem roundsTo_of (h : UsualBits w p) {q : ℚ} {c : FBits w p} (hc : c.denotes = (Fmt.ofBits w p).rnd q) :
    RoundsTo q c := by
  obtain ⟨o1, o2⟩ := overflow h q
  have hf := h.normal
  by_cases hq : |q| < limit w p
  · obtain ⟨r, hr⟩ := o1.2 hq
    rw [hr] at hc
    obtain ⟨c1, rfl⟩ := isFin_of hc
    refine .inl ⟨hq, c1, fun x hx => ⟨Fmt.rnd_nearest hf hr (rep_val h hx), fun hne he => ?_⟩⟩
    by_cases h0 : q = 0
    · subst h0
      rw [Fmt.rnd, if_pos rfl] at hr
      have := Fl.fin.inj hr
      rw [← this] at he hne
      simp only [sub_self, abs_zero, zero_sub, abs_neg] at he
      exact absurd (abs_eq_zero.1 he.symm) hne
    · have hraw : c.val = (Fmt.ofBits w p).raw q := by
        rw [Fmt.rnd_eq_raw] at hr
        split at hr
        · cases hr
        split at hr
        · cases hr
        exact (Fl.fin.inj hr).symm
      exact parity h h0 hraw (Fmt.tie_even hf h0 (rep_val h hx) (by rw [← hraw]; exact hne) (by rw [← hraw]; exact he))
  · have := o2 (not_lt.1 hq)
    rw [this] at hc
    obtain ⟨c1, c2⟩ := isInf_of hc
    exact .inr ⟨not_lt.1 hq, c1, by rw [c2]; simp⟩

/-- a pattern for every value, zeros with either sign -/
theorem pattern (h : UsualBits w p) {x : Fl} (hx : ∀ q, x = .fin q → (Fmt.ofBits w p).Rep q) (s : Bool) :
    ∃ c : FBits w p, c.denotes = x ∧ (x = .fin 0 → c.neg = s) := by
  have hw := h.twice
  have hb := h.big
  have hp2 : 1 < 2 ^ (p - 1) := Nat.one_lt_two_pow (by have := h.p2; omega)
  have inf : ∀ s : Bool, ∃ c : FBits w p, c.denotes = if s then .ninf else .pinf := fun s =>
    ⟨⟨s, ⟨2 ^ w - 1, by omega⟩, ⟨0, by omega⟩⟩, by simp [denotes]⟩
  cases x with
  | nan => exact ⟨⟨false, ⟨2 ^ w - 1, by omega⟩, ⟨1, hp2⟩⟩, by simp [denotes], fun h => nomatch h⟩
  | ninf => obtain ⟨c, hc⟩ := inf true; exact ⟨c, hc, fun h => nomatch h⟩
  | pinf => obtain ⟨c, hc⟩ := inf false; exact ⟨c, hc, fun h => nomatch h⟩
  | fin q =>
    obtain ⟨b, b1, b2, b3⟩ := of_rep h (hx q rfl) s
    exact ⟨b, by rw [denotes_fin b1, b2], fun h => b3 (Fl.fin.inj h)⟩

end FBits

open FBits

/-- C121: the numbers of the formats in the model are those of the bit patterns -/
theorem C121_numbers (h : UsualBits w p) (q : ℚ) :
    (Fmt.ofBits w p).Rep q ↔ ∃ b : FBits w p, b.IsFin ∧ b.val = q :=
  ⟨fun hq => let ⟨b, h1, h2, _⟩ := of_rep h hq false; ⟨b, h1, h2⟩, fun ⟨_, h1, h2⟩ => h2 ▸ rep_val h h1⟩

/-- C121: rounding in the model is that of IEEE 754: to a nearest number, of two equally near ones to that whose last
bit is 0, and to infinity exactly from half a unit beyond the largest number -/
theorem C121_rounding (h : UsualBits w p) (q : ℚ) (c : FBits w p) :
    RoundsTo q c ↔ c.denotes = (Fmt.ofBits w p).rnd q := by
  refine ⟨fun hc => ?_, roundsTo_of h⟩
  obtain ⟨d, hd, -⟩ := pattern h (x := (Fmt.ofBits w p).rnd q) (fun r hr => Fmt.rep_of_rnd h.normal hr) false
  rw [← hd]
  exact hc.unique h (roundsTo_of h hd)


/-- one type of numbers is as good as another -/
structure FloatHom {F G : Type} (O : FloatOps F) (O' : FloatOps G) (φ : F → G) : Prop where
  zero : φ O.zero = O'.zero
  one : φ O.one = O'.one
  minValue : φ O.minValue = O'.minValue
  maxValue : φ O.maxValue = O'.maxValue
  add : ∀ a b, O'.add (φ a) (φ b) = (O.add a b).map φ
  sub : ∀ a b, O'.sub (φ a) (φ b) = (O.sub a b).map φ
  mul : ∀ a b, O'.mul (φ a) (φ b) = (O.mul a b).map φ
  min : ∀ a b, O'.min (φ a) (φ b) = φ (O.min a b)
  max : ∀ a b, O'.max (φ a) (φ b) = φ (O.max a b)
  floor : ∀ a, O'.floor (φ a) = (O.floor a).map φ
  ceil : ∀ a, O'.ceil (φ a) = (O.ceil a).map φ
  trunc : ∀ a, O'.trunc (φ a) = (O.trunc a).map φ
  round : ∀ a, O'.round (φ a) = (O.round a).map φ
  lt : ∀ a b, O'.lt (φ a) (φ b) = O.lt a b

namespace FBits

theorem denotes_neg (b : FBits w p) : ({ b with neg := !b.neg } : FBits w p).denotes = b.denotes.neg := by
  unfold denotes val
  dsimp only
  split
  · split
    · cases b.neg <;> rfl
    · rfl
  · have : ({ b with neg := !b.neg } : FBits w p).mag = b.mag := rfl
    rw [this]
    cases b.neg <;> simp [Fl.neg]

theorem Adds.denotes (h : UsualBits w p) {a b c : FBits w p} (hc : Adds a b c) :
    c.denotes = Fl.add (Fmt.ofBits w p) a.denotes b.denotes := by
  rcases a.trichotomy with ha | ha | ha
  · rw [denotes_nan (hc.nan (.inl ha)), denotes_nan ha]; rfl
  · rcases b.trichotomy with hb | hb | hb
    · rw [denotes_nan (hc.nan (.inr hb)), denotes_nan hb]; cases a.denotes <;> rfl
    · have := hc.inf_inf ha hb
      rw [denotes_inf ha, denotes_inf hb]
      split at this
      · rename_i e
        rw [denotes_inf this.1, this.2, ← e]
        cases a.neg <;> rfl
      · rename_i e
        rw [denotes_nan this]
        cases h1 : a.neg <;> cases h2 : b.neg <;> first | rfl | (rw [h1, h2] at e; exact absurd rfl e)
    · obtain ⟨h1, h2⟩ := hc.inf_fin ha hb
      rw [denotes_inf ha, denotes_fin hb, denotes_inf h1, h2]
      cases a.neg <;> rfl
  · rcases b.trichotomy with hb | hb | hb
    · rw [denotes_nan (hc.nan (.inr hb)), denotes_nan hb]; cases a.denotes <;> rfl
    · obtain ⟨h1, h2⟩ := hc.fin_inf ha hb
      rw [denotes_inf hb, denotes_fin ha, denotes_inf h1, h2]
      cases b.neg <;> rfl
    · rw [(C121_rounding h _ _).1 (hc.fin_fin ha hb), denotes_fin ha, denotes_fin hb]; rfl

theorem val_pos_iff {b : FBits w p} (h0 : b.val ≠ 0) : 0 < b.val ↔ b.neg = false := by
  have := b.mag_nonneg
  unfold val at h0 ⊢
  cases hn : b.neg <;> rw [hn] at h0 <;> simp at h0 ⊢
  · exact lt_of_le_of_ne this (Ne.symm h0)
  · exact this

theorem Multiplies.denotes (h : UsualBits w p) {a b c : FBits w p} (hc : Multiplies a b c) :
    c.denotes = Fl.mul (Fmt.ofBits w p) a.denotes b.denotes := by
  have infinite : c.IsInf → c.denotes = if (a.neg ^^ b.neg) then .ninf else .pinf := fun h1 => by
    rw [denotes_inf h1, hc.sign fun h2 => h2.not_inf h1]
  rcases a.trichotomy with ha | ha | ha
  · rw [denotes_nan (hc.nan (.inl ha)), denotes_nan ha]; rfl
  · rcases b.trichotomy with hb | hb | hb
    · rw [denotes_nan (hc.nan (.inr hb)), denotes_nan hb, denotes_inf ha]; cases a.neg <;> rfl
    · rw [infinite (hc.inf_inf ha hb), denotes_inf ha, denotes_inf hb]
      cases a.neg <;> cases b.neg <;> rfl
    · rw [denotes_inf ha, denotes_fin hb]
      by_cases h0 : b.val = 0
      · rw [denotes_nan (hc.inf_zero ha hb h0), h0]
        cases a.neg <;> simp [Fl.mul, Fl.infMul]
      · rw [infinite (hc.inf_fin ha hb h0)]
        have hp := val_pos_iff h0
        cases hn : b.neg <;> rw [hn] at hp <;> cases a.neg <;> simp [Fl.mul, Fl.infMul, h0] <;> simp at hp <;> exact hp
  · rcases b.trichotomy with hb | hb | hb
    · rw [denotes_nan (hc.nan (.inr hb)), denotes_nan hb, denotes_fin ha]; rfl
    · rw [denotes_inf hb, denotes_fin ha]
      by_cases h0 : a.val = 0
      · rw [denotes_nan (hc.zero_inf ha h0 hb), h0]
        cases b.neg <;> simp [Fl.mul, Fl.infMul]
      · rw [infinite (hc.fin_inf ha h0 hb)]
        have hp := val_pos_iff h0
        cases hn : a.neg <;> rw [hn] at hp <;> cases b.neg <;> simp [Fl.mul, Fl.infMul, h0] <;> simp at hp <;> exact hp
    · rw [(C121_rounding h _ _).1 (hc.fin_fin ha hb), denotes_fin ha, denotes_fin hb]; rfl

theorem less_iff (a b : FBits w p) : Less a b ↔ Fl.lt a.denotes b.denotes = true := by
  unfold Less
  rcases a.trichotomy with ha | ha | ha <;> rcases b.trichotomy with hb | hb | hb
  · simp [denotes_nan ha, Fl.lt, ha.not_fin, ha.not_inf]
  · simp [denotes_nan ha, Fl.lt, ha.not_fin, ha.not_inf]
  · simp [denotes_nan ha, Fl.lt, ha.not_fin, ha.not_inf]
  · rw [denotes_nan hb]; simp [hb.not_fin, hb.not_inf]; cases a.denotes <;> rfl
  · rw [denotes_inf ha, denotes_inf hb]
    cases hx : a.neg <;> cases hy : b.neg <;> simp [Fl.lt, ha, hb, ha.not_fin, hb.not_fin]
  · rw [denotes_inf ha, denotes_fin hb]
    cases hx : a.neg <;> simp [Fl.lt, ha, hb, ha.not_fin]
  · rw [denotes_nan hb]; simp [hb.not_fin, hb.not_inf]; cases a.denotes <;> rfl
  · rw [denotes_fin ha, denotes_inf hb]
    cases hy : b.neg <;> simp [Fl.lt, ha, hb, hb.not_fin]
  · rw [denotes_fin ha, denotes_fin hb]
    have h1 : ¬ a.IsInf := fun h => h.not_fin ha
    have h2 : ¬ b.IsInf := fun h => h.not_fin hb
    simp [Fl.lt, ha, hb, h1, h2]

theorem not_nan_denotes {a : FBits w p} (h : ¬ a.IsNaN) : a.denotes ≠ .nan := fun h' => h (isNaN_of h')

theorem Maximum.denotes {a b c : FBits w p} (hc : Maximum a b c) : c.denotes = Fl.max a.denotes b.denotes := by
  by_cases ha : a.IsNaN
  · rw [denotes_nan ha]
    by_cases hb : b.IsNaN
    · rw [denotes_nan hb, denotes_nan (hc.nan ha hb)]; rfl
    · rw [hc.left ha hb]; rfl
  · by_cases hb : b.IsNaN
    · rw [denotes_nan hb, hc.right ha hb]; cases a.denotes <;> rfl
    · obtain ⟨h1, h2, h3⟩ := hc.one ha hb
      rw [less_iff] at h2 h3
      have na := not_nan_denotes ha
      have nb := not_nan_denotes hb
      rcases h1 with rfl | rfl
      · revert h3 na nb
        cases c.denotes <;> cases b.denotes <;> simp [Fl.lt, Fl.max]
        intros; linarith
      · revert h2 na nb
        cases a.denotes <;> cases c.denotes <;> simp [Fl.lt, Fl.max]
        intros; linarith

theorem Minimum.denotes {a b c : FBits w p} (hc : Minimum a b c) : c.denotes = Fl.min a.denotes b.denotes := by
  by_cases ha : a.IsNaN
  · rw [denotes_nan ha]
    by_cases hb : b.IsNaN
    · rw [denotes_nan hb, denotes_nan (hc.nan ha hb)]; rfl
    · rw [hc.left ha hb]; rfl
  · by_cases hb : b.IsNaN
    · rw [denotes_nan hb, hc.right ha hb]; cases a.denotes <;> rfl
    · obtain ⟨h1, h2, h3⟩ := hc.one ha hb
      rw [less_iff] at h2 h3
      have na := not_nan_denotes ha
      have nb := not_nan_denotes hb
      rcases h1 with rfl | rfl
      · revert h3 na nb
        cases c.denotes <;> cases b.denotes <;> simp [Fl.lt, Fl.min]
        intros; linarith
      · revert h2 na nb
        cases a.denotes <;> cases c.denotes <;> simp [Fl.lt, Fl.min]
        intros; linarith

theorem Integral.denotes {g : ℚ → ℤ} {a c : FBits w p} (hc : Integral g a c) :
    c.denotes = Fl.mapInt g a.denotes := by
  rcases a.trichotomy with ha | ha | ha
  · rw [denotes_nan ha, denotes_nan (hc.nan ha)]; rfl
  · rw [hc.inf ha, denotes_inf ha]; cases a.neg <;> rfl
  · obtain ⟨h1, h2⟩ := hc.fin ha
    rw [denotes_fin ha, denotes_fin h1, h2]; rfl

theorem denotes_max (h : UsualBits w p) {b : FBits w p} (he : b.exp.val = 2 ^ w - 2) (hm : b.man.val = 2 ^ (p - 1) - 1) :
    b.denotes = .fin (if b.neg then -(Fmt.ofBits w p).maxVal else (Fmt.ofBits w p).maxVal) := by
  have h1 := h.twice
  have h2 := h.big
  have h3 := h.p2
  have h4 := two_pred h3
  have h5 := Nat.two_pow_pos (p - 1)
  have hb : b.IsFin := by show b.exp.val ≠ _; omega
  rw [denotes_fin hb]
  have : b.mag = (Fmt.ofBits w p).maxVal := by
    unfold mag Fmt.maxVal
    rw [if_neg (by omega), he, hm]
    have e1 : ((2 ^ w - 2 : ℕ) : ℤ) - 1 + (Fmt.ofBits w p).emin = (2 ^ (w - 1) : ℕ) - p := by
      have := h.top; push_cast at this ⊢; linarith
    rw [e1, zpow_sub₀ (by norm_num), zpow_natCast, zpow_natCast]
    have e2 : ((2 ^ (p - 1) - 1 : ℕ) : ℚ) = 2 ^ (p - 1) - 1 := by
      rw [Nat.cast_sub (by omega)]; push_cast; rfl
    have e3 : (2 : ℚ) ^ p = 2 * 2 ^ (p - 1) := by exact_mod_cast h4
    rw [e2]
    show _ = (2 : ℚ) ^ (2 ^ (w - 1)) - 2 ^ (2 ^ (w - 1)) / 2 ^ p
    rw [e3]; field_simp; ring
  unfold val
  rw [this]

end FBits

theorem truncQ_spec (q : ℚ) : (if q < 0 then ⌈q⌉ else ⌊q⌋) = Fl.truncQ q := by
  unfold Fl.truncQ
  by_cases h : q < 0
  · rw [if_pos h, if_neg (not_le.2 h)]
  · rw [if_neg h, if_pos (not_lt.1 h)]

/-- C121: whatever patterns the operations choose where IEEE 754 leaves it open (signs of zeros from `min` and `max`,
which NaN), what the patterns denote is computed as in the model -/
theorem C121_operations (h : UsualBits w p) {O : FloatOps (FBits w p)} (hO : IeeeOps O) :
    FloatHom O (Fl.ops (Fmt.ofBits w p)) FBits.denotes where
  zero := by rw [denotes_fin hO.zero.2.1, hO.zero.2.2]
  one := by rw [denotes_fin hO.one.1, hO.one.2]
  minValue := by rw [denotes_max h hO.minValue.2.1 hO.minValue.2.2, hO.minValue.1]; rfl
  maxValue := by rw [denotes_max h hO.maxValue.2.1 hO.maxValue.2.2, hO.maxValue.1]; rfl
  add a b := by
    obtain ⟨c, e, hc⟩ := hO.add a b
    rw [e]; exact congrArg Except.ok (hc.denotes h).symm
  sub a b := by
    obtain ⟨c, e, hc⟩ := hO.sub a b
    rw [e]
    refine congrArg Except.ok ?_
    rw [← denotes_neg]; exact (hc.denotes h).symm
  mul a b := by
    obtain ⟨c, e, hc⟩ := hO.mul a b
    rw [e]; exact congrArg Except.ok (hc.denotes h).symm
  min a b := (hO.min a b).denotes.symm
  max a b := (hO.max a b).denotes.symm
  floor a := by
    obtain ⟨c, e, hc⟩ := hO.floor a
    rw [e]; exact congrArg Except.ok hc.denotes.symm
  ceil a := by
    obtain ⟨c, e, hc⟩ := hO.ceil a
    rw [e]; exact congrArg Except.ok hc.denotes.symm
  trunc a := by
    obtain ⟨c, e, hc⟩ := hO.trunc a
    rw [e]
    refine congrArg Except.ok ?_
    rw [hc.denotes]
    congr 1; funext q; exact (truncQ_spec q).symm
  round a := by
    obtain ⟨c, e, hc⟩ := hO.round a
    rw [e]
    refine congrArg Except.ok ?_
    rw [hc.denotes]
    congr 1; funext q
    unfold Fl.roundQ
    by_cases h : q < 0
    · rw [if_pos h, if_neg (not_le.2 h)]
    · rw [if_neg h, if_pos (not_lt.1 h)]
  lt a b := by
    have := (hO.lt a b).trans (less_iff a b)
    exact (Bool.eq_iff_iff.2 this).symm

section
variable {F G : Type} {O : FloatOps F} {O' : FloatOps G} {φ : F → G}

theorem StatFloat.run_replace (H : FloatHom O O' φ) (t : Tree (statFloat O)) :
    (t.replace (D' := statFloat O') (statFloat.replaceOp φ) φ).run = t.run.map (StatFloat.replace φ) := by
  induction t with
  | dflt => simp [Tree.replace, Tree.run, Except.map, StatFloat.replace, H.zero, H.one, H.minValue, H.maxValue]
  | base b => simp [Tree.replace, Tree.run, Except.map, StatFloat.replace, H.one, H.minValue, H.maxValue]
  | op t o ih =>
    simp only [Tree.replace, Tree.run, ih]
    cases t.run with
    | error e => rfl
    | ok v =>
      cases o with
      | or x => exact x.elim
      | not x => exact x.elim
      | base x => simp [statFloat.replaceOp, StatOp.writeTo, Except.map, StatFloat.replace, H.one, H.minValue, H.maxValue, bind, Except.bind]
      | add x =>
        simp only [statFloat.replaceOp, StatOp.writeTo, Except.map, StatFloat.replace, H.add, bind, Except.bind]
        cases O.add v.addend x <;> rfl
      | mul x =>
        simp only [statFloat.replaceOp, StatOp.writeTo, Except.map, StatFloat.replace, H.mul, bind, Except.bind]
        cases O.mul v.mult x <;> rfl
      | min x => simp [statFloat.replaceOp, StatOp.writeTo, Except.map, StatFloat.replace, H.max, bind, Except.bind]
      | max x => simp [statFloat.replaceOp, StatOp.writeTo, Except.map, StatFloat.replace, H.min, bind, Except.bind]
  | join l r ihl ihr =>
    simp only [Tree.replace, Tree.run, ihl, ihr]
    cases l.run with
    | error e => rfl
    | ok a =>
      cases r.run with
      | error e => rfl
      | ok b =>
        simp only [Except.map, StatFloat.replace, H.add, H.mul, H.min, H.max, bind, Except.bind]
        cases O.add a.addend b.addend with
        | error e => rfl
        | ok x => cases O.mul a.mult b.mult <;> rfl

theorem StatFloatAdditive.run_replace (H : FloatHom O O' φ) (t : Tree (statFloatAdditive O)) :
    (t.replace (D' := statFloatAdditive O') (statFloatAdditive.replaceOp φ) φ).run = t.run.map (StatFloatAdditive.replace φ) := by
  induction t with
  | dflt => simp [Tree.replace, Tree.run, Except.map, StatFloatAdditive.replace, H.zero, H.minValue, H.maxValue]
  | base b => simp [Tree.replace, Tree.run, Except.map, StatFloatAdditive.replace, H.zero, H.minValue, H.maxValue]
  | op t o ih =>
    simp only [Tree.replace, Tree.run, ih]
    cases t.run with
    | error e => rfl
    | ok v =>
      cases o with
      | or x => exact x.elim
      | not x => exact x.elim
      | base x => simp [statFloatAdditive.replaceOp, StatOp.writeTo, Except.map, StatFloatAdditive.replace, H.zero, H.minValue, H.maxValue, bind, Except.bind]
      | add x =>
        simp only [statFloatAdditive.replaceOp, StatOp.writeTo, Except.map, StatFloatAdditive.replace, H.add, bind, Except.bind]
        cases O.add v.addend x <;> rfl
      | mul x =>
        simp only [statFloatAdditive.replaceOp, StatOp.writeTo, Except.map, StatFloatAdditive.replace, H.add, bind, Except.bind]
        cases O.add v.mult x <;> rfl
      | min x => simp [statFloatAdditive.replaceOp, StatOp.writeTo, Except.map, StatFloatAdditive.replace, H.max, bind, Except.bind]
      | max x => simp [statFloatAdditive.replaceOp, StatOp.writeTo, Except.map, StatFloatAdditive.replace, H.min, bind, Except.bind]
  | join l r ihl ihr =>
    simp only [Tree.replace, Tree.run, ihl, ihr]
    cases l.run with
    | error e => rfl
    | ok a =>
      cases r.run with
      | error e => rfl
      | ok b =>
        simp only [Except.map, StatFloatAdditive.replace, H.add, H.min, H.max, bind, Except.bind]
        cases O.add a.addend b.addend with
        | error e => rfl
        | ok x => cases O.add a.mult b.mult <;> rfl

theorem StatMult.run_replace (H : FloatHom O O' φ) (t : Tree (statMult O)) :
    (t.replace (D' := statMult O') (statMult.replaceOp φ) φ).run = t.run.map (StatMult.replace φ) := by
  induction t with
  | dflt => simp [Tree.replace, Tree.run, Except.map, StatMult.replace, H.one, H.minValue, H.maxValue]
  | base b => simp [Tree.replace, Tree.run, Except.map, StatMult.replace, H.minValue, H.maxValue]
  | op t o ih =>
    simp only [Tree.replace, Tree.run, ih]
    cases t.run with
    | error e => rfl
    | ok v =>
      cases o with
      | or x => exact x.elim
      | not x => exact x.elim
      | base x => simp [statMult.replaceOp, StatOp.writeTo, Except.map, StatMult.replace, H.minValue, H.maxValue, bind, Except.bind]
      | add x => exact x.elim
      | mul x =>
        simp only [statMult.replaceOp, StatOp.writeTo, Except.map, StatMult.replace, H.mul, bind, Except.bind]
        cases O.mul v.mult x <;> rfl
      | min x => simp [statMult.replaceOp, StatOp.writeTo, Except.map, StatMult.replace, H.max, bind, Except.bind]
      | max x => simp [statMult.replaceOp, StatOp.writeTo, Except.map, StatMult.replace, H.min, bind, Except.bind]
  | join l r ihl ihr =>
    simp only [Tree.replace, Tree.run, ihl, ihr]
    cases l.run with
    | error e => rfl
    | ok a =>
      cases r.run with
      | error e => rfl
      | ok b =>
        simp only [Except.map, StatMult.replace, H.mul, H.min, H.max, bind, Except.bind]
        cases O.mul a.mult b.mult <;> rfl

theorem StatIntFloatMul.run_replace (H : FloatHom O O' φ) (n : NumTy) (toF : Int → F) (ofF : F → Int)
    (toF' : Int → G) (ofF' : G → Int) (R : Rounding) (t : Tree (statIntFloatMul n O toF ofF R)) :
    (t.replace (D' := statIntFloatMul n O' toF' ofF' R) (statIntFloatMul.replaceOp φ) id).run = t.run.map (StatIntFloatMul.replace φ) := by
  induction t with
  | dflt => simp [Tree.replace, Tree.run, Except.map, StatIntFloatMul.replace, H.one]
  | base b => simp [Tree.replace, Tree.run, Except.map, StatIntFloatMul.replace, H.one]
  | op t o ih =>
    simp only [Tree.replace, Tree.run, ih]
    cases t.run with
    | error e => rfl
    | ok v =>
      cases o with
      | or x => exact x.elim
      | not x => exact x.elim
      | base x => simp [statIntFloatMul.replaceOp, StatOp.writeTo, Except.map, StatIntFloatMul.replace, H.one, bind, Except.bind]
      | add x =>
        simp only [statIntFloatMul.replaceOp, StatOp.writeTo, Except.map, StatIntFloatMul.replace, bind, Except.bind]
        cases n.add v.addend x <;> rfl
      | mul x =>
        simp only [statIntFloatMul.replaceOp, StatOp.writeTo, Except.map, StatIntFloatMul.replace, H.mul, bind, Except.bind]
        cases O.mul v.mult x <;> rfl
      | min x => simp [statIntFloatMul.replaceOp, StatOp.writeTo, Except.map, StatIntFloatMul.replace, bind, Except.bind]
      | max x => simp [statIntFloatMul.replaceOp, StatOp.writeTo, Except.map, StatIntFloatMul.replace, bind, Except.bind]
  | join l r ihl ihr =>
    simp only [Tree.replace, Tree.run, ihl, ihr]
    cases l.run with
    | error e => rfl
    | ok a =>
      cases r.run with
      | error e => rfl
      | ok b =>
        simp only [Except.map, StatIntFloatMul.replace, H.mul, bind, Except.bind]
        cases n.add a.addend b.addend with
        | error e => rfl
        | ok x => cases O.mul a.mult b.mult <;> rfl

theorem StatFloat.eval_replace (H : FloatHom O O' φ) (v : StatFloat F) :
    (statFloat O').eval (v.replace φ) = ((statFloat O).eval v).map φ := by
  simp only [StatFloat.replace, H.mul, bind, Except.bind, Except.map]
  cases O.mul v.addend v.mult with
  | error e => rfl
  | ok x => simp only [H.min, H.max]

theorem StatFloatAdditive.eval_replace (H : FloatHom O O' φ) (v : StatFloatAdditive F) :
    (statFloatAdditive O').eval (v.replace φ) = ((statFloatAdditive O).eval v).map φ := by
  simp only [StatFloatAdditive.replace, ← H.one, H.add, bind, Except.bind, Except.map]
  cases O.add v.mult O.one with
  | error e => rfl
  | ok m =>
    simp only [H.mul, Except.map]
    cases O.mul v.addend m with
    | error e => rfl
    | ok x => simp only [H.min, H.max]

theorem StatMult.eval_replace (H : FloatHom O O' φ) (v : StatMult F) :
    (statMult O').eval (v.replace φ) = ((statMult O).eval v).map φ := by
  simp only [StatMult.replace, Except.map, H.min, H.max]

theorem Rounding.apply_replace (H : FloatHom O O' φ) (R : Rounding) (x : F) : R.apply O' (φ x) = (R.apply O x).map φ := by
  cases R with
  | truncate => exact H.trunc x
  | floor => exact H.floor x
  | ceil => exact H.ceil x
  | round => exact H.round x
  | truncateSigned =>
    simp only [Rounding.apply, ← H.zero, ← H.one, H.lt, H.trunc, H.sub]
    split
    · cases O.trunc x with
      | error e => rfl
      | ok y => simp only [Except.map, bind, Except.bind, H.max]
    · split
      · cases O.trunc x with
        | error e => rfl
        | ok y =>
          cases O.sub O.zero O.one with
          | error e => rfl
          | ok m => simp only [Except.map, bind, Except.bind, H.min]
      · rfl

theorem StatIntFloatMul.eval_replace (H : FloatHom O O' φ) (n : NumTy) {toF : Int → F} {ofF : F → Int}
    {toF' : Int → G} {ofF' : G → Int} (h1 : ∀ z, φ (toF z) = toF' z) (h2 : ∀ x, ofF' (φ x) = ofF x) (R : Rounding)
    (v : StatIntFloatMul F) :
    (statIntFloatMul n O' toF' ofF' R).eval (v.replace φ) = (statIntFloatMul n O toF ofF R).eval v := by
  simp only [StatIntFloatMul.replace, ← h1, H.mul, bind, Except.bind]
  cases O.mul (toF v.addend) v.mult with
  | error e => rfl
  | ok x =>
    simp only [Except.map, Rounding.apply_replace H]
    cases R.apply O x with
    | error e => rfl
    | ok y => simp only [h2]

end


/-- C121 for `StatFloat`: what assembling and evaluating patterns gives denotes what assembling and evaluating the
values they denote gives -/
theorem C121_float (h : UsualBits w p) {O : FloatOps (FBits w p)} (hO : IeeeOps O) (t : Tree (statFloat O)) :
    (t.replace (D' := statFloat (Fl.ops (Fmt.ofBits w p))) (statFloat.replaceOp denotes) denotes).run =
      t.run.map (StatFloat.replace denotes) ∧
    ∀ v, (statFloat (Fl.ops (Fmt.ofBits w p))).eval (v.replace denotes) = ((statFloat O).eval v).map denotes :=
  ⟨StatFloat.run_replace (C121_operations h hO) t, StatFloat.eval_replace (C121_operations h hO)⟩

/-- C121 for `StatFloatAdditive` -/
theorem C121_float_additive (h : UsualBits w p) {O : FloatOps (FBits w p)} (hO : IeeeOps O)
    (t : Tree (statFloatAdditive O)) :
    (t.replace (D' := statFloatAdditive (Fl.ops (Fmt.ofBits w p))) (statFloatAdditive.replaceOp denotes) denotes).run =
      t.run.map (StatFloatAdditive.replace denotes) ∧
    ∀ v, (statFloatAdditive (Fl.ops (Fmt.ofBits w p))).eval (v.replace denotes) =
      ((statFloatAdditive O).eval v).map denotes :=
  ⟨StatFloatAdditive.run_replace (C121_operations h hO) t, StatFloatAdditive.eval_replace (C121_operations h hO)⟩

/-- C121 for `StatMult` -/
theorem C121_mult (h : UsualBits w p) {O : FloatOps (FBits w p)} (hO : IeeeOps O) (t : Tree (statMult O)) :
    (t.replace (D' := statMult (Fl.ops (Fmt.ofBits w p))) (statMult.replaceOp denotes) denotes).run =
      t.run.map (StatMult.replace denotes) ∧
    ∀ v, (statMult (Fl.ops (Fmt.ofBits w p))).eval (v.replace denotes) = ((statMult O).eval v).map denotes :=
  ⟨StatMult.run_replace (C121_operations h hO) t, StatMult.eval_replace (C121_operations h hO)⟩

theorem FBits.casts_denote (h : UsualBits w p) {t : IntTy} {toF : Int → FBits w p} {ofF : FBits w p → Int}
    (hc : IeeeCasts t toF ofF) :
    (∀ z, (toF z).denotes = Fl.ofInt (Fmt.ofBits w p) z) ∧ ∀ x, Fl.toInt t x.denotes = ofF x := by
  refine ⟨fun z => (C121_rounding h _ _).1 (hc.toF z), fun x => ?_⟩
  rcases x.trichotomy with hx | hx | hx
  · rw [denotes_nan hx, hc.nan x hx]; rfl
  · rw [denotes_inf hx, hc.inf x hx]; cases x.neg <;> rfl
  · rw [denotes_fin hx, hc.fin x hx, truncQ_spec]; rfl

/-- C121 for `StatIntFloatMul`: the evaluated integer is the same -/
theorem C121_int_float_mul (h : UsualBits w p) {O : FloatOps (FBits w p)} (hO : IeeeOps O) (n : NumTy)
    {toF : Int → FBits w p} {ofF : FBits w p → Int} (hc : IeeeCasts n.prim toF ofF) (R : Rounding)
    (t : Tree (statIntFloatMul n O toF ofF R)) :
    let D' := statIntFloatMul n (Fl.ops (Fmt.ofBits w p)) (Fl.ofInt (Fmt.ofBits w p)) (Fl.toInt n.prim) R
    ((t.replace (D' := D') (statIntFloatMul.replaceOp denotes) id).run >>= fun v => D'.eval v) =
      t.run >>= fun v => (statIntFloatMul n O toF ofF R).eval v := by
  intro D'
  have H := C121_operations h hO
  obtain ⟨h1, h2⟩ := casts_denote h hc
  have e := StatIntFloatMul.run_replace H n toF ofF (Fl.ofInt (Fmt.ofBits w p)) (Fl.toInt n.prim) R t
  rw [e]
  cases t.run with
  | error e => rfl
  | ok v => exact StatIntFloatMul.eval_replace H n h1 h2 R v

/-- C121: two programs whose operands denote the same, and whose operations may choose different patterns, get results
that denote the same -/
theorem C121_same (h : UsualBits w p) {O O' : FloatOps (FBits w p)} (hO : IeeeOps O) (hO' : IeeeOps O')
    (t : Tree (statFloat O)) (t' : Tree (statFloat O'))
    (ht : t.replace (D' := statFloat (Fl.ops (Fmt.ofBits w p))) (statFloat.replaceOp denotes) denotes =
      t'.replace (D' := statFloat (Fl.ops (Fmt.ofBits w p))) (statFloat.replaceOp denotes) denotes) :
    (t.run >>= fun v => (statFloat O).eval v).map denotes = (t'.run >>= fun v => (statFloat O').eval v).map denotes := by
  have e1 := (C121_float h hO t).1
  have e2 := (C121_float h hO' t').1
  rw [ht, e2] at e1
  cases h1 : t.run with
  | error e =>
    rw [h1] at e1
    cases h2 : t'.run with
    | error e' => rw [h2] at e1; cases e1; rfl
    | ok v' => rw [h2] at e1; cases e1
  | ok v =>
    rw [h1] at e1
    cases h2 : t'.run with
    | error e' => rw [h2] at e1; cases e1
    | ok v' =>
      rw [h2] at e1
      have e3 : v'.replace denotes = v.replace denotes := Except.ok.inj e1
      show ((statFloat O).eval v).map denotes = ((statFloat O').eval v').map denotes
      rw [← (C121_float h hO t).2 v, ← (C121_float h hO' t').2 v', e3]

theorem FBits.ext_inf {a c : FBits w p} (ha : a.IsInf) (hc : c.IsInf) (h : c.neg = a.neg) : c = a := by
  obtain ⟨n, e, m⟩ := a
  obtain ⟨n', e', m'⟩ := c
  have h1 : e' = e := Fin.ext (hc.1.trans ha.1.symm)
  have h2 : m' = m := Fin.ext (hc.2.trans ha.2.symm)
  have h3 : n' = n := h
  subst h1 h2 h3; rfl

/-- the pattern chosen for a value -/
noncomputable def FBits.encode (h : UsualBits w p) (x : Fl) (hx : ∀ q, x = .fin q → (Fmt.ofBits w p).Rep q) (s : Bool) :
    FBits w p := (pattern h hx s).choose
theorem FBits.encode_denotes (h : UsualBits w p) (x : Fl) (hx : ∀ q, x = .fin q → (Fmt.ofBits w p).Rep q) (s : Bool) :
    (encode h x hx s).denotes = x := (pattern h hx s).choose_spec.1
theorem FBits.encode_zero (h : UsualBits w p) (x : Fl) (hx : ∀ q, x = .fin q → (Fmt.ofBits w p).Rep q) (s : Bool)
    (h0 : x = .fin 0) : (encode h x hx s).neg = s := (pattern h hx s).choose_spec.2 h0

theorem Fl.rep_add {f : Fmt} (hf : f.Normal) (a b : Fl) : ∀ q, Fl.add f a b = .fin q → f.Rep q := by
  intro q
  cases a <;> cases b <;> simp only [Fl.add] <;> intro h <;> first | cases h | exact Fmt.rep_of_rnd hf h
theorem Fl.rep_mul {f : Fmt} (hf : f.Normal) (a b : Fl) : ∀ q, Fl.mul f a b = .fin q → f.Rep q := by
  intro q
  have inf : ∀ (s : Bool) (x : Fl), Fl.infMul s x ≠ .fin q := by
    intro s x; cases x <;> cases s <;> simp [Fl.infMul] <;> split_ifs <;> simp
  cases a <;> cases b <;> simp only [Fl.mul] <;> intro h <;>
    first | cases h | exact absurd h (inf _ _) | exact Fmt.rep_of_rnd hf h

/-- rounding a number of a format to an integer gives a number of the format -/
theorem Fmt.rep_integral {f : Fmt} (hf : f.Normal) {g : ℚ → ℤ} (hi : ∀ z : ℤ, g z = z) (hg : ∀ q, |(g q : ℚ) - q| ≤ 1)
    {q : ℚ} (hq : f.Rep q) : f.Rep (g q) := by
  have hq' := hq
  obtain ⟨m, e, rfl, hm, he, hlt⟩ := hq
  rcases le_or_gt 0 e with h0 | h0
  · have : (m : ℚ) * 2 ^ e = ((m * 2 ^ e.toNat : ℤ) : ℚ) := by
      push_cast; rw [← zpow_natCast, Int.toNat_of_nonneg h0]
    rw [this] at hq' ⊢
    rw [hi]; exact hq'
  · have hp := hf.p_pos
    have h1 : |(m : ℚ) * 2 ^ e| ≤ 2 ^ f.p / 2 := by
      have hmq : |(m : ℚ)| ≤ 2 ^ f.p := by exact_mod_cast hm
      have h2e : (0 : ℚ) < 2 ^ e := zpow_pos (by norm_num) _
      have h2e' : (2 : ℚ) ^ e ≤ 1 / 2 := by
        calc (2 : ℚ) ^ e ≤ 2 ^ (-1 : ℤ) := zpow_le_zpow_right₀ (by norm_num) (by omega)
          _ = 1 / 2 := by norm_num
      rw [abs_mul, abs_of_pos h2e]
      calc |(m : ℚ)| * 2 ^ e ≤ 2 ^ f.p * (1 / 2) := by gcongr
        _ = _ := by ring
    have h2 := hg (m * 2 ^ e)
    have h3 : (2 : ℚ) ≤ 2 ^ f.p := by
      calc (2 : ℚ) = 2 ^ 1 := by norm_num
        _ ≤ _ := pow_le_pow_right₀ (by norm_num) hp
    have h4 : |(g (m * 2 ^ e) : ℚ)| ≤ 2 ^ f.p := by
      rw [abs_le] at h1 h2 ⊢
      constructor <;> linarith
    exact ⟨g (m * 2 ^ e), 0, by simp, by exact_mod_cast h4, hf.emin_neg,
      lt_of_le_of_lt h4 (pow_lt_pow_right₀ (by norm_num) hf.emax_big)⟩

theorem FBits.rep_mapInt (h : UsualBits w p) {g : ℚ → ℤ} (hi : ∀ z : ℤ, g z = z) (hg : ∀ q, |(g q : ℚ) - q| ≤ 1)
    (a : FBits w p) : ∀ q, Fl.mapInt g a.denotes = .fin q → (Fmt.ofBits w p).Rep q := by
  intro q hq
  cases hd : a.denotes with
  | fin x =>
    obtain ⟨h1, rfl⟩ := isFin_of hd
    rw [hd] at hq
    have := Fl.fin.inj hq
    rw [← this]; exact Fmt.rep_integral h.normal hi hg (rep_val h h1)
  | _ => rw [hd] at hq; cases hq

theorem FBits.integral_of {g : ℚ → ℤ} {a c : FBits w p} (hc : c.denotes = Fl.mapInt g a.denotes) : Integral g a c where
  nan ha := by rw [denotes_nan ha] at hc; exact isNaN_of hc
  inf ha := by
    rw [denotes_inf ha] at hc
    obtain ⟨h1, h2⟩ := isInf_of (s := a.neg) (hc.trans (by cases a.neg <;> rfl))
    exact ext_inf ha h1 h2
  fin ha := by rw [denotes_fin ha] at hc; exact isFin_of hc

theorem FBits.adds_of (h : UsualBits w p) {a b c : FBits w p}
    (hc : c.denotes = Fl.add (Fmt.ofBits w p) a.denotes b.denotes)
    (hs : Fl.add (Fmt.ofBits w p) a.denotes b.denotes = .fin 0 → c.neg = (a.neg && b.neg)) : Adds a b c where
  nan hn := by
    apply isNaN_of
    rw [hc]
    rcases hn with hn | hn
    · rw [denotes_nan hn]; rfl
    · rw [denotes_nan hn]; cases a.denotes <;> rfl
  inf_inf ha hb := by
    rw [denotes_inf ha, denotes_inf hb] at hc
    split
    · rename_i e
      exact isInf_of (hc.trans (by rw [e]; cases b.neg <;> rfl))
    · rename_i e
      refine isNaN_of (hc.trans ?_)
      cases h1 : a.neg <;> cases h2 : b.neg <;> first | rfl | (rw [h1, h2] at e; exact absurd rfl e)
  inf_fin ha hb := by
    rw [denotes_inf ha, denotes_fin hb] at hc
    exact isInf_of (hc.trans (by cases a.neg <;> rfl))
  fin_inf ha hb := by
    rw [denotes_fin ha, denotes_inf hb] at hc
    exact isInf_of (hc.trans (by cases b.neg <;> rfl))
  fin_fin ha hb := by
    rw [denotes_fin ha, denotes_fin hb] at hc
    exact roundsTo_of h hc
  sign ha hb h0 := hs (by
    rw [denotes_fin ha, denotes_fin hb, Fl.add, h0]
    simp [Fmt.rnd])

theorem FBits.neg_iff {b : FBits w p} (h0 : b.val ≠ 0) : b.neg = true ↔ b.val < 0 := by
  have := val_pos_iff h0
  cases hn : b.neg <;> rw [hn] at this
  · simp at this; simp [this.le]
  · simp at this; simp; exact lt_of_le_of_ne this h0

theorem FBits.mul_sign {a b : FBits w p} (h : a.val * b.val ≠ 0) : (a.neg ^^ b.neg) = true ↔ a.val * b.val < 0 := by
  have ha : a.val ≠ 0 := left_ne_zero_of_mul h
  have hb : b.val ≠ 0 := right_ne_zero_of_mul h
  have h1 := neg_iff ha
  have h2 := neg_iff hb
  rw [mul_neg_iff]
  cases hn : a.neg <;> cases hm : b.neg <;> rw [hn] at h1 <;> rw [hm] at h2 <;> simp at h1 h2 ⊢
  · exact ⟨fun _ => h2, fun hlt => absurd hlt (not_lt.2 h1)⟩
  · exact .inl ⟨lt_of_le_of_ne h1 (Ne.symm ha), h2⟩
  · exact .inr ⟨h1, lt_of_le_of_ne h2 (Ne.symm hb)⟩
  · exact ⟨fun h => absurd h (not_lt.2 h1.le), fun _ => h2.le⟩

theorem FBits.multiplies_of (h : UsualBits w p) {a b c : FBits w p}
    (hc : c.denotes = Fl.mul (Fmt.ofBits w p) a.denotes b.denotes)
    (hs : Fl.mul (Fmt.ofBits w p) a.denotes b.denotes = .fin 0 → c.neg = (a.neg ^^ b.neg)) : Multiplies a b c := by
  have infs : ∀ s : Bool, c.denotes = (if s then .ninf else .pinf) → c.IsInf ∧ c.neg = s := fun s => isInf_of
  have inf_fin : a.IsInf → b.IsFin → b.val ≠ 0 → c.IsInf ∧ c.neg = (a.neg ^^ b.neg) := by
    intro ha hb h0
    refine infs _ (hc.trans ?_)
    rw [denotes_inf ha, denotes_fin hb]
    have hp := val_pos_iff h0
    cases hn : b.neg <;> rw [hn] at hp <;> cases a.neg <;> simp [Fl.mul, Fl.infMul, h0] <;> simp at hp <;> exact hp
  have fin_inf : a.IsFin → a.val ≠ 0 → b.IsInf → c.IsInf ∧ c.neg = (a.neg ^^ b.neg) := by
    intro ha h0 hb
    refine infs _ (hc.trans ?_)
    rw [denotes_inf hb, denotes_fin ha]
    have hp := val_pos_iff h0
    cases hn : a.neg <;> rw [hn] at hp <;> cases b.neg <;> simp [Fl.mul, Fl.infMul, h0] <;> simp at hp <;> exact hp
  have inf_inf : a.IsInf → b.IsInf → c.IsInf ∧ c.neg = (a.neg ^^ b.neg) := by
    intro ha hb
    refine infs _ (hc.trans ?_)
    rw [denotes_inf ha, denotes_inf hb]
    cases a.neg <;> cases b.neg <;> rfl
  have inf_zero : a.IsInf → b.IsFin → b.val = 0 → c.IsNaN := by
    intro ha hb h0
    apply isNaN_of
    rw [hc, denotes_inf ha, denotes_fin hb, h0]
    cases a.neg <;> simp [Fl.mul, Fl.infMul]
  have zero_inf : a.IsFin → a.val = 0 → b.IsInf → c.IsNaN := by
    intro ha h0 hb
    apply isNaN_of
    rw [hc, denotes_inf hb, denotes_fin ha, h0]
    cases b.neg <;> simp [Fl.mul, Fl.infMul]
  have nan : a.IsNaN ∨ b.IsNaN → c.IsNaN := by
    intro hn
    apply isNaN_of
    rw [hc]
    rcases hn with hn | hn
    · rw [denotes_nan hn]; rfl
    · rw [denotes_nan hn]; cases a.denotes <;> rfl
  have fin_fin : a.IsFin → b.IsFin → RoundsTo (a.val * b.val) c := by
    intro ha hb
    rw [denotes_fin ha, denotes_fin hb] at hc
    exact roundsTo_of h hc
  refine ⟨nan, inf_zero, zero_inf, fun h1 h2 => (inf_inf h1 h2).1, fun h1 h2 h3 => (inf_fin h1 h2 h3).1,
    fun h1 h2 h3 => (fin_inf h1 h2 h3).1, fin_fin, fun hn => ?_⟩
  rcases a.trichotomy with ha | ha | ha
  · exact absurd (nan (.inl ha)) hn
  · rcases b.trichotomy with hb | hb | hb
    · exact absurd (nan (.inr hb)) hn
    · exact (inf_inf ha hb).2
    · by_cases h0 : b.val = 0
      · exact absurd (inf_zero ha hb h0) hn
      · exact (inf_fin ha hb h0).2
  · rcases b.trichotomy with hb | hb | hb
    · exact absurd (nan (.inr hb)) hn
    · by_cases h0 : a.val = 0
      · exact absurd (zero_inf ha h0 hb) hn
      · exact (fin_inf ha h0 hb).2
    · have hm : Fl.mul (Fmt.ofBits w p) a.denotes b.denotes = (Fmt.ofBits w p).rnd (a.val * b.val) := by
        rw [denotes_fin ha, denotes_fin hb]; rfl
      rcases fin_fin ha hb with ⟨h1, h2, h3⟩ | ⟨h1, h2, h3⟩
      · rw [denotes_fin h2, hm] at hc
        by_cases h0 : c.val = 0
        · exact hs (by rw [hm, ← hc, h0])
        · have hraw : c.val = (Fmt.ofBits w p).raw (a.val * b.val) := by
            rw [Fmt.rnd_eq_raw] at hc
            split at hc
            · cases hc
            split at hc
            · cases hc
            exact Fl.fin.inj hc
          have hab : a.val * b.val ≠ 0 := fun e => h0 (by rw [hraw, e, Fmt.raw_zero])
          rw [Bool.eq_iff_iff, neg_iff h0, mul_sign hab]
          constructor
          · intro hlt
            by_contra hge
            have := (Fmt.ofBits w p).raw_nonneg (not_lt.1 hge)
            linarith
          · intro hlt
            have := (Fmt.ofBits w p).raw_nonneg (q := -(a.val * b.val)) (by linarith)
            rw [Fmt.raw_neg] at this
            exact lt_of_le_of_ne (by linarith) h0
      · have hab : a.val * b.val ≠ 0 := fun e => by
          rw [e, abs_zero] at h1
          have := ((overflow h 0).1.1 ⟨0, by simp [Fmt.rnd]⟩)
          rw [abs_zero] at this
          linarith
        rw [Bool.eq_iff_iff, h3, mul_sign hab]

/-- C121: there are such operations -/
theorem C121_exists (h : UsualBits w p) : ∃ O : FloatOps (FBits w p), IeeeOps O := by
  have hf := h.normal
  have h1 := h.twice
  have h2 := h.big
  have h5 := Nat.two_pow_pos (p - 1)
  have rep0 : ∀ q, Fl.fin 0 = .fin q → (Fmt.ofBits w p).Rep q := fun q hq => by
    cases hq; exact ⟨0, 0, by simp, by simp, hf.emin_neg, by simp⟩
  have rep1 : ∀ q, Fl.fin 1 = .fin q → (Fmt.ofBits w p).Rep q := fun q hq => by
    cases hq
    have := Fmt.rnd_int hf (z := 1) (by simp; exact one_le_pow₀ (by norm_num))
    exact Fmt.rep_of_rnd hf (by exact_mod_cast this)
  have iFloor := fun a : FBits w p => rep_mapInt h (g := (⌊·⌋)) (fun z => Int.floor_intCast z)
    (fun q => by rw [abs_le]; constructor <;> linarith [Int.floor_le q, Int.lt_floor_add_one q]) a
  have iCeil := fun a : FBits w p => rep_mapInt h (g := (⌈·⌉)) (fun z => Int.ceil_intCast z)
    (fun q => by rw [abs_le]; constructor <;> linarith [Int.le_ceil q, Int.ceil_lt_add_one q]) a
  have iTrunc := fun a : FBits w p => rep_mapInt h (g := fun q => if q < 0 then ⌈q⌉ else ⌊q⌋)
    (fun z => by split <;> simp)
    (fun q => by
      split <;> rw [abs_le] <;>
        constructor <;> linarith [Int.floor_le q, Int.lt_floor_add_one q, Int.le_ceil q, Int.ceil_lt_add_one q]) a
  have iRound := fun a : FBits w p => rep_mapInt h (g := fun q => if q < 0 then ⌈q - 1 / 2⌉ else ⌊q + 1 / 2⌋)
    (fun z => by
      split
      · rw [Int.ceil_eq_iff]; constructor <;> linarith
      · rw [Int.floor_eq_iff]; constructor <;> linarith)
    (fun q => by
      split <;> rw [abs_le] <;> constructor <;>
        linarith [Int.floor_le (q + 1 / 2), Int.lt_floor_add_one (q + 1 / 2), Int.le_ceil (q - 1 / 2),
          Int.ceil_lt_add_one (q - 1 / 2)]) a
  refine ⟨{
    zero := encode h (.fin 0) rep0 false
    one := encode h (.fin 1) rep1 false
    minValue := ⟨true, ⟨2 ^ w - 2, by omega⟩, ⟨2 ^ (p - 1) - 1, by omega⟩⟩
    maxValue := ⟨false, ⟨2 ^ w - 2, by omega⟩, ⟨2 ^ (p - 1) - 1, by omega⟩⟩
    add := fun a b => .ok (encode h _ (Fl.rep_add hf a.denotes b.denotes) (a.neg && b.neg))
    sub := fun a b => .ok (encode h _ (Fl.rep_add hf a.denotes ({ b with neg := !b.neg } : FBits w p).denotes)
      (a.neg && !b.neg))
    mul := fun a b => .ok (encode h _ (Fl.rep_mul hf a.denotes b.denotes) (a.neg ^^ b.neg))
    min := fun a b => if a.IsNaN then b else if b.IsNaN then a else if Fl.lt b.denotes a.denotes then b else a
    max := fun a b => if a.IsNaN then b else if b.IsNaN then a else if Fl.lt a.denotes b.denotes then b else a
    floor := fun a => .ok (encode h _ (iFloor a) a.neg)
    ceil := fun a => .ok (encode h _ (iCeil a) a.neg)
    trunc := fun a => .ok (encode h _ (iTrunc a) a.neg)
    round := fun a => .ok (encode h _ (iRound a) a.neg)
    lt := fun a b => Fl.lt a.denotes b.denotes }, ?_⟩
  have irrefl : ∀ x : Fl, Fl.lt x x = false := fun x => by cases x <;> simp [Fl.lt]
  have asymm : ∀ x y : Fl, Fl.lt x y = true → Fl.lt y x = false := fun x y => by
    cases x <;> cases y <;> simp [Fl.lt]; exact le_of_lt
  exact {
    zero := ⟨encode_zero h _ rep0 false rfl, isFin_of (encode_denotes h _ rep0 false)⟩
    one := isFin_of (encode_denotes h _ rep1 false)
    minValue := ⟨rfl, rfl, rfl⟩
    maxValue := ⟨rfl, rfl, rfl⟩
    add := fun a b => ⟨_, rfl, adds_of h (encode_denotes h _ _ _) (encode_zero h _ _ _)⟩
    sub := fun a b => ⟨_, rfl, adds_of h (encode_denotes h _ _ _) (encode_zero h _ _ _)⟩
    mul := fun a b => ⟨_, rfl, multiplies_of h (encode_denotes h _ _ _) (encode_zero h _ _ _)⟩
    min := fun a b => {
      nan := fun ha hb => by dsimp only; rw [if_pos ha]; exact hb
      left := fun ha hb => by dsimp only; rw [if_pos ha]
      right := fun ha hb => by dsimp only; rw [if_neg ha, if_pos hb]
      one := fun ha hb => by
        dsimp only
        rw [if_neg ha, if_neg hb, less_iff, less_iff]
        split
        · rename_i e; exact ⟨.inr rfl, by simp [asymm _ _ e], by simp [irrefl]⟩
        · rename_i e; exact ⟨.inl rfl, by simp [irrefl], e⟩ }
    max := fun a b => {
      nan := fun ha hb => by dsimp only; rw [if_pos ha]; exact hb
      left := fun ha hb => by dsimp only; rw [if_pos ha]
      right := fun ha hb => by dsimp only; rw [if_neg ha, if_pos hb]
      one := fun ha hb => by
        dsimp only
        rw [if_neg ha, if_neg hb, less_iff, less_iff]
        split
        · rename_i e; exact ⟨.inr rfl, by simp [asymm _ _ e], by simp [irrefl]⟩
        · rename_i e; exact ⟨.inl rfl, by simp [irrefl], e⟩ }
    floor := fun a => ⟨_, rfl, integral_of (encode_denotes h _ _ _)⟩
    ceil := fun a => ⟨_, rfl, integral_of (encode_denotes h _ _ _)⟩
    trunc := fun a => ⟨_, rfl, integral_of (encode_denotes h _ _ _)⟩
    round := fun a => ⟨_, rfl, integral_of (encode_denotes h _ _ _)⟩
    lt := fun a b => (less_iff a b).symm }

/-- C121: there are such casts -/
theorem C121_casts_exist (h : UsualBits w p) (t : IntTy) :
    ∃ (toF : Int → FBits w p) (ofF : FBits w p → Int), IeeeCasts t toF ofF := by
  have hf := h.normal
  refine ⟨fun z => encode h ((Fmt.ofBits w p).rnd z) (fun q hq => Fmt.rep_of_rnd hf hq) false,
    fun x => Fl.toInt t x.denotes, fun z => roundsTo_of h (encode_denotes h _ _ _), fun a ha => ?_, fun a ha => ?_,
    fun a ha => ?_⟩
  · rw [denotes_nan ha]; rfl
  · rw [denotes_inf ha]; cases a.neg <;> rfl
  · rw [denotes_fin ha, truncQ_spec]; rfl

theorem FBits.ext_zero {a c : FBits w p} (ha : a.val = 0) (hc : c.val = 0) (h : c.neg = a.neg) : c = a := by
  have sig0 : ∀ b : FBits w p, b.val = 0 → b.exp.val = 0 ∧ b.man.val = 0 := by
    intro b hb
    have h1 := abs_val b
    rw [hb, abs_zero, mag_eq] at h1
    have h2 : (0 : ℚ) < 2 ^ b.scale := zpow_pos (by norm_num) _
    have h3 : b.sig = 0 := by
      rcases mul_eq_zero.1 h1.symm with h3 | h3
      · exact_mod_cast h3
      · exact absurd h3 h2.ne'
    have h5 := Nat.two_pow_pos (p - 1)
    unfold sig at h3
    split at h3 <;> constructor <;> omega
  obtain ⟨a1, a2⟩ := sig0 a ha
  obtain ⟨c1, c2⟩ := sig0 c hc
  obtain ⟨n, e, m⟩ := a
  obtain ⟨n', e', m'⟩ := c
  have h1 : e' = e := Fin.ext (c1.trans a1.symm)
  have h2 : m' = m := Fin.ext (c2.trans a2.symm)
  have h3 : n' = n := h
  subst h1 h2 h3; rfl

theorem IeeeOps.clamp_zero (h : UsualBits w p) {O : FloatOps (FBits w p)} (hO : IeeeOps O) {x : FBits w p}
    (hx : x.IsFin) (h0 : x.val = 0) : O.max (O.min x O.maxValue) O.minValue = x := by
  have h2 := h.big
  have h1 := h.twice
  have fin : ∀ b : FBits w p, b.exp.val = 2 ^ w - 2 → b.IsFin := fun b hb h' => by
    have h' : b.exp.val = 2 ^ w - 1 := h'
    omega
  have ne : ∀ b : FBits w p, b.exp.val = 2 ^ w - 2 → b.val ≠ 0 := fun b hb h' => by
    have h3 := abs_val b
    rw [h', abs_zero, mag_eq] at h3
    have h4 : (0 : ℚ) < 2 ^ b.scale := zpow_pos (by norm_num) _
    have h5 := Nat.two_pow_pos (p - 1)
    have h8 := h.p2
    have h6 : 0 < b.sig := by unfold sig; split <;> omega
    have h7 : (0 : ℚ) < b.sig := by exact_mod_cast h6
    exact absurd h3 (mul_pos h7 h4).ne
  have nn : ∀ b : FBits w p, b.IsFin → ¬ b.IsNaN := fun b hb h' => h'.not_fin hb
  have fM := fin _ hO.maxValue.2.1
  have fm := fin _ hO.minValue.2.1
  have pM : 0 < O.maxValue.val := (val_pos_iff (ne _ hO.maxValue.2.1)).2 hO.maxValue.1
  have pm : O.minValue.val < 0 := (neg_iff (ne _ hO.minValue.2.1)).1 hO.minValue.1
  have e1 : O.min x O.maxValue = x := by
    obtain ⟨h3, h4, h5⟩ := (hO.min x O.maxValue).one (nn _ hx) (nn _ fM)
    rcases h3 with h3 | h3
    · exact h3
    · rw [h3] at h4
      exact absurd (.inl ⟨hx, fM, by rw [h0]; exact pM⟩) h4
  rw [e1]
  obtain ⟨h3, h4, h5⟩ := (hO.max x O.minValue).one (nn _ hx) (nn _ fm)
  rcases h3 with h3 | h3
  · exact h3
  · rw [h3] at h4
    exact absurd (.inl ⟨fm, hx, by rw [h0]; exact pm⟩) h4

theorem IeeeOps.mul_zero (h : UsualBits w p) {O : FloatOps (FBits w p)} (hO : IeeeOps O) {x m : FBits w p}
    (hx : x.IsFin) (h0 : x.val = 0) (hm : m.IsFin) (h1 : m.val = 1) : O.mul x m = .ok x := by
  obtain ⟨c, e, hc⟩ := hO.mul x m
  have h2 := hc.fin_fin hx hm
  rw [h0, zero_mul, C121_rounding h] at h2
  obtain ⟨h3, h4⟩ := isFin_of (h2.trans (by simp [Fmt.rnd] : (Fmt.ofBits w p).rnd 0 = .fin 0))
  have h5 := hc.sign (fun h' => h'.not_fin h3)
  have h6 : m.neg = false := (val_pos_iff (by rw [h1]; norm_num)).1 (by rw [h1]; norm_num)
  rw [h6, Bool.xor_false] at h5
  rw [e, ext_zero h0 h4 h5]

/-- C121: patterns themselves are not kept.  A base of `-0.0` evaluates to `-0.0`; joined with a default it evaluates to
`0.0`. -/
theorem C121_negative_zero (h : UsualBits w p) {O : FloatOps (FBits w p)} (hO : IeeeOps O) (b : FBits w p)
    (hb : b.IsFin) (h0 : b.val = 0) (hn : b.neg = true) :
    (statFloat O).eval ((statFloat O).fromBase b) = .ok b ∧
    ∃ v z, (statFloat O).join ((statFloat O).fromBase b) (statFloat O).default = .ok v ∧
      (statFloat O).eval v = .ok z ∧ z.neg = false ∧ z.IsFin ∧ z.val = 0 ∧ z ≠ b := by
  have hM : O.min O.maxValue O.maxValue = O.maxValue := by
    have h2 := h.big
    have h1 := h.twice
    have hn : ¬ O.maxValue.IsNaN := fun h' => by
      have h3 : O.maxValue.exp.val = 2 ^ w - 1 := h'.1
      rw [hO.maxValue.2.1] at h3
      omega
    rcases ((hO.min O.maxValue O.maxValue).one hn hn).1 with e | e <;> exact e
  have hm : O.max O.minValue O.minValue = O.minValue := by
    have h2 := h.big
    have h1 := h.twice
    have hn : ¬ O.minValue.IsNaN := fun h' => by
      have h3 : O.minValue.exp.val = 2 ^ w - 1 := h'.1
      rw [hO.minValue.2.1] at h3
      omega
    rcases ((hO.max O.minValue O.minValue).one hn hn).1 with e | e <;> exact e
  refine ⟨?_, ?_⟩
  · show (O.mul b O.one >>= fun x => Except.ok (O.max (O.min x O.maxValue) O.minValue)) = .ok b
    rw [hO.mul_zero h hb h0 hO.one.1 hO.one.2]
    exact congrArg Except.ok (hO.clamp_zero h hb h0)
  · obtain ⟨z, ez, hz⟩ := hO.add b O.zero
    obtain ⟨m, em, hm'⟩ := hO.mul O.one O.one
    have z1 := hz.fin_fin hb hO.zero.2.1
    rw [h0, hO.zero.2.2, add_zero, C121_rounding h] at z1
    obtain ⟨z2, z3⟩ := isFin_of (z1.trans (by simp [Fmt.rnd] : (Fmt.ofBits w p).rnd 0 = .fin 0))
    have z4 := hz.sign hb hO.zero.2.1 (by rw [h0, hO.zero.2.2, add_zero])
    rw [hO.zero.1, Bool.and_false] at z4
    have m1 := hm'.fin_fin hO.one.1 hO.one.1
    rw [hO.one.2, mul_one, C121_rounding h] at m1
    have r1 : (Fmt.ofBits w p).rnd 1 = .fin 1 := by
      have := Fmt.rnd_int h.normal (z := 1) (by simp; exact one_le_pow₀ (by norm_num))
      exact_mod_cast this
    obtain ⟨m2, m3⟩ := isFin_of (m1.trans r1)
    refine ⟨⟨z, O.minValue, O.maxValue, m⟩, z, ?_, ?_, z4, z2, z3, fun e => by rw [e, hn] at z4; cases z4⟩
    · show (O.add b O.zero >>= fun x => O.mul O.one O.one >>= fun y => Except.ok
        (⟨x, O.max O.minValue O.minValue, O.min O.maxValue O.maxValue, y⟩ : StatFloat (FBits w p))) = _
      rw [ez, em, hM, hm]; rfl
    · show (O.mul z m >>= fun x => Except.ok (O.max (O.min x O.maxValue) O.minValue)) = .ok z
      rw [hO.mul_zero h z2 z3 m2 m3]
      exact congrArg Except.ok (hO.clamp_zero h z2 z3)

/-- `-0.0` in single precision -/
example : (⟨true, 0, 0⟩ : F32).IsFin ∧ (⟨true, 0, 0⟩ : F32).val = 0 := by
  refine ⟨by unfold IsFin; decide, by simp [FBits.val, FBits.mag]⟩

/-- 0.1 in single precision is `0x3DCCCCCD`: nothing is nearer, and the half way point is not reached -/
example : ((⟨false, 123, 0x4CCCCD⟩ : F32)).denotes = Fmt.f32.rnd (1 / 10) := by
  have : (⟨false, 123, 0x4CCCCD⟩ : F32).denotes = .fin (13421773 / 134217728) := by
    rw [denotes_fin (by unfold IsFin; decide)]
    norm_num [FBits.val, FBits.mag, Fmt.ofBits]
  rw [this]
  decide +kernel

/-- **C121** Both formats of Rust are usual ones, and the values of their bit patterns are those of the formats of the
model: 24 and 53 bits of precision, multiples of 2^-149 and 2^-1074, below 2^128 and 2^1024.  So there are arithmetics as
the theorems ask for, and the numbers of the formats of the model are those of the patterns. -/
theorem C121_rust :
    (∃ O : FloatOps F32, IeeeOps O) ∧ (∃ O : FloatOps F64, IeeeOps O) ∧
    Fmt.ofBits 8 24 = Fmt.f32 ∧ Fmt.ofBits 11 53 = Fmt.f64 ∧
    (∀ q, Fmt.f32.Rep q ↔ ∃ b : F32, b.IsFin ∧ b.val = q) ∧ (∀ q, Fmt.f64.Rep q ↔ ∃ b : F64, b.IsFin ∧ b.val = q) :=
  have h32 : Fmt.ofBits 8 24 = Fmt.f32 := by decide
  have h64 : Fmt.ofBits 11 53 = Fmt.f64 := by decide
  ⟨C121_exists usual_f32, C121_exists usual_f64, h32, h64, fun q => h32 ▸ C121_numbers usual_f32 q,
    fun q => h64 ▸ C121_numbers usual_f64 q⟩

/-- two programs that differ in the sign of a zero -/
example (O : FloatOps F32) (a : F32) :
    (Tree.join (.base ⟨true, 0, 0⟩) (.base a) : Tree (statFloat O)).replace
        (D' := statFloat (Fl.ops (Fmt.ofBits 8 24))) (statFloat.replaceOp denotes) denotes =
      (Tree.join (.base ⟨false, 0, 0⟩) (.base a) : Tree (statFloat O)).replace
        (D' := statFloat (Fl.ops (Fmt.ofBits 8 24))) (statFloat.replaceOp denotes) denotes := by
  have : (⟨true, 0, 0⟩ : F32).denotes = (⟨false, 0, 0⟩ : F32).denotes := by
    rw [denotes_fin (by unfold IsFin; decide), denotes_fin (by unfold IsFin; decide)]
    simp [FBits.val, FBits.mag]
  simp only [Tree.replace, this]

end BSQ
