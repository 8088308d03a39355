import Verif.Proofs.Ieee
import Verif.Proofs.Bounds
import Verif.Spec.Misc
/-!
# Floating point stats: order dependence (C24), integer stats with float multipliers (C25) and rounding of
floats (C31)
-/
namespace BSQ
open Contrib
set_option linter.unusedSimpArgs false

/-! ## C24 -/

/-- C24 is false: adding `2^24`, `1`, `1` to a `StatFloat<f32>` gives `2^24`, adding `1`, `1`, `2^24` gives
`2^24 + 2`. -/
theorem C24_refuted :
    let D := statFloat (Fl.ops .f32)
    let os : List (StatOp D) := [.add (.fin (2 ^ 24)), .add (.fin 1), .add (.fin 1)]
    let os' : List (StatOp D) := [.add (.fin 1), .add (.fin 1), .add (.fin (2 ^ 24))]
    os.Perm os' ∧
    ((Tree.ofList os).run >>= fun v => D.eval v) = .ok (.fin (2 ^ 24)) ∧
    ((Tree.ofList os').run >>= fun v => D.eval v) = .ok (.fin (2 ^ 24 + 2)) := by
  refine ⟨?_, by decide +kernel, by decide +kernel⟩
  exact (List.perm_append_comm (l₁ := [_]) (l₂ := [_, _]))

/-- C24, a part that holds: `join` is commutative, NaN and infinities included. -/
theorem C24_join_comm_partial (f : Fmt) :
    JoinComm (statFloat (Fl.ops f)) ∧ JoinComm (statFloatAdditive (Fl.ops f)) ∧
    JoinComm (statMult (Fl.ops f)) := by
  refine ⟨fun a b => ?_, fun a b => ?_, fun a b => ?_⟩ <;>
    simp only [Res.bind_ok, Fl.max_comm b.min, Fl.min_comm b.max, Fl.mul_comm f b.mult,
      Fl.add_comm f b.mult, Fl.add_comm f]

/-- C24, a part that holds: the effective bounds do not depend on the order, whatever the operands. -/
theorem C24_bounds_partial (f : Fmt) (s u : Tree (statFloat (Fl.ops f))) (hs : s.NoReset) (hu : u.NoReset)
    (hp : s.leaves.Perm u.leaves) :
    ∃ v w, s.run = .ok v ∧ u.run = .ok w ∧ v.min = w.min ∧ v.max = w.max := by
  have tot : ∀ tr : Tree (statFloat (Fl.ops f)), ∃ v, tr.run = .ok v := by
    intro tr
    induction tr with
    | dflt => exact ⟨_, rfl⟩
    | base b => exact ⟨_, rfl⟩
    | op t o ih =>
      obtain ⟨v, hv⟩ := ih
      rcases o with _ | _ | x | x | _ | _ | _ <;> first | exact x.elim | exact ⟨_, by simp [Tree.run, hv]; rfl⟩
    | join l r ihl ihr =>
      obtain ⟨a, ha⟩ := ihl
      obtain ⟨b, hb⟩ := ihr
      exact ⟨_, by simp [Tree.run, ha, hb]; rfl⟩
  obtain ⟨v, hv⟩ := tot s
  obtain ⟨w, hw⟩ := tot u
  have r1 := (statFloat.bmodel f).rep s v hs (fun _ _ => trivial) hv
  have r2 := (statFloat.bmodel f).rep u w hu (fun _ _ => trivial) hw
  have hp' := hp.map (statFloat.bmodel f).contrib
  refine ⟨v, w, hv, hw, Fl.pos_inj r1.ok.1 r2.ok.1 ?_, Fl.pos_inj r1.ok.2 r2.ok.2 ?_⟩
  · exact r1.lo.trans ((floorOf_perm _ hp').trans r2.lo.symm)
  · exact r1.hi.trans ((capOf_perm _ hp').trans r2.hi.symm)

/-- the integer nearest to a float from below; the float's value when it is an integer -/
def Fl.intVal : Fl → ℤ
  | .fin q => ⌊q⌋
  | _ => 0

/-- addends and multipliers are whole numbers; bounds are arbitrary -/
def statFloat.Whole {f : Fmt} : StatOp (statFloat (Fl.ops f)) → Prop
  | .add a => a = .fin a.intVal
  | .mul a => a = .fin a.intVal
  | .base a => a = .fin a.intVal
  | _ => True

/-- the whole numbers contributed -/
def statFloat.intContrib {f : Fmt} : StatOp (statFloat (Fl.ops f)) → Contrib ℤ ℤ ℤ
  | .add a => .add a.intVal
  | .mul a => .mul a.intVal
  | .base a => .add a.intVal
  | .min _ => .atLeast 0
  | .max _ => .atMost 0

theorem one_le_absProduct (l : List (Contrib ℤ ℤ ℤ)) : 1 ≤ absProduct l := by
  induction l with
  | nil => simp [absProduct]
  | cons c l ih =>
    cases c with
    | mul m =>
      simp only [absProduct]
      exact le_trans (by norm_num) (mul_le_mul (le_max_left 1 _) ih (by norm_num) (by positivity))
    | _ => simpa [absProduct] using ih
/-- C24, a part that holds: with whole-number addends and multipliers whose absolute sum and product stay
within `2^p` (`2^24` for `f32`, `2^53` for `f64`) every intermediate result is exact, so the assembled value
is the exact sum and product whatever the order and grouping.  Missing: operands that get rounded, where the
claim is false (`C24_refuted`). -/
theorem C24_exact_partial (f : Fmt) (hf : f.Normal) (tr : Tree (statFloat (Fl.ops f))) (hr : tr.NoReset)
    (hw : ∀ o ∈ tr.leaves, statFloat.Whole o)
    (hs : absTotal (tr.leaves.map statFloat.intContrib) ≤ 2 ^ f.p)
    (hm : absProduct (tr.leaves.map statFloat.intContrib) ≤ 2 ^ f.p) (v : StatFloat Fl)
    (hv : tr.run = .ok v) :
    v.addend = .fin (total (tr.leaves.map statFloat.intContrib) : ℤ) ∧
    v.mult = .fin (product (tr.leaves.map statFloat.intContrib) : ℤ) := by
  induction tr generalizing v with
  | dflt => cases hv; simp [Tree.leaves, total, product]
  | base b =>
    cases hv
    have := hw (.base b) (by simp [Tree.leaves])
    simp only [Tree.leaves, List.map_cons, List.map_nil, statFloat.intContrib, total, product, add_zero]
    exact ⟨this, by simp⟩
  | op t o ih =>
    obtain ⟨w, hw', hv⟩ := Res.bind_eq_ok.1 hv
    have hwo := hw o (by simp [Tree.leaves])
    simp only [Tree.leaves, List.map_append, List.map_cons, List.map_nil] at hs hm ⊢
    have b1 := (abs_total_le _).trans hs
    have b2 := (abs_product_le _).trans hm
    rw [absTotal_append] at hs
    rw [absProduct_append] at hm
    have n1 := absTotal_nonneg [statFloat.intContrib o]
    have n2 := one_le_absProduct [statFloat.intContrib o]
    have n3 := one_le_absProduct (t.leaves.map statFloat.intContrib)
    obtain ⟨i1, i2⟩ := ih hr.1 (fun o ho => hw o (by simp [Tree.leaves, ho])) (by omega)
      (by nlinarith) w hw'
    rw [total_append] at b1
    rw [product_append] at b2
    rw [total_append, product_append]
    cases o with
    | base b => exact absurd trivial hr.2
    | or x => exact x.elim
    | not x => exact x.elim
    | add a =>
      simp only [StatOp.writeTo, Res.bind_ok, Except.ok.injEq] at hv
      subst hv
      simp only [statFloat.intContrib, total, product, add_zero, mul_one] at b1 ⊢
      refine ⟨?_, i2⟩
      simp only [i1]
      simp only [statFloat.Whole] at hwo
      exact (congrArg _ hwo).trans (Fl.add_int hf b1)
    | mul a =>
      simp only [StatOp.writeTo, Res.bind_ok, Except.ok.injEq] at hv
      subst hv
      simp only [statFloat.intContrib, total, product, add_zero, mul_one] at b2 ⊢
      refine ⟨i1, ?_⟩
      simp only [i2]
      simp only [statFloat.Whole] at hwo
      exact (congrArg _ hwo).trans (Fl.mul_int hf b2)
    | min a => cases hv; simpa [statFloat.intContrib, total, product] using ⟨i1, i2⟩
    | max a => cases hv; simpa [statFloat.intContrib, total, product] using ⟨i1, i2⟩
  | join l r ihl ihr =>
    obtain ⟨a, ha, hv⟩ := Res.bind_eq_ok.1 hv
    obtain ⟨b, hb, hv⟩ := Res.bind_eq_ok.1 hv
    simp only [Res.bind_ok, Except.ok.injEq] at hv
    subst hv
    simp only [Tree.leaves, List.map_append] at hs hm ⊢
    have b1 := (abs_total_le _).trans hs
    have b2 := (abs_product_le _).trans hm
    rw [absTotal_append] at hs
    rw [absProduct_append] at hm
    have n1 := absTotal_nonneg (l.leaves.map statFloat.intContrib)
    have n1' := absTotal_nonneg (r.leaves.map statFloat.intContrib)
    have n2 := one_le_absProduct (l.leaves.map statFloat.intContrib)
    have n3 := one_le_absProduct (r.leaves.map statFloat.intContrib)
    obtain ⟨i1, i2⟩ := ihl hr.1 (fun o ho => hw o (by simp [Tree.leaves, ho])) (by omega) (by nlinarith) a ha
    obtain ⟨j1, j2⟩ := ihr hr.2 (fun o ho => hw o (by simp [Tree.leaves, ho])) (by omega) (by nlinarith) b hb
    rw [total_append] at b1 ⊢
    rw [product_append] at b2 ⊢
    simp only [i1, i2, j1, j2]
    exact ⟨Fl.add_int hf b1, Fl.mul_int hf b2⟩

/-- whole numbers: `(3 + 4) * 5`, in two groupings -/
example : let D := statFloat (Fl.ops .f32)
    let tr : Tree D := .join (.op (.base (.fin 3)) (.mul (.fin 5))) (.op .dflt (.add (.fin 4)))
    tr.NoReset ∧ (∀ o ∈ tr.leaves, statFloat.Whole o) ∧
    absTotal (tr.leaves.map statFloat.intContrib) ≤ 2 ^ 24 ∧
    absProduct (tr.leaves.map statFloat.intContrib) ≤ 2 ^ 24 ∧
    (tr.run >>= fun v => D.eval v) = .ok (.fin 35) := by
  refine ⟨by simp [Tree.NoReset, StatOp.IsBase], ?_, by decide +kernel, by decide +kernel, by decide +kernel⟩
  intro o ho
  simp only [Tree.leaves, List.nil_append, List.cons_append, List.mem_cons, List.not_mem_nil, or_false] at ho
  rcases ho with rfl | rfl | rfl <;> simp [statFloat.Whole, Fl.intVal]

/-! ## C25 -/

/-- `StatIntFloatMul<T, f32/f64, R>` with the `as` casts of the format -/
abbrev statIntFl (t : NumTy) (f : Fmt) (R : Rounding) : StatValue (StatIntFloatMul Fl) :=
  statIntFloatMul t (Fl.ops f) (Fl.ofInt f) (Fl.toInt t.prim) R

/-- C25 is false: an `i32` base of `2^24 + 1` with an `f32` multiplier evaluates to `2^24`, in every rounding
mode. -/
theorem C25_refuted (R : Rounding) :
    let D := statIntFl ⟨.i32, .prim, .debug⟩ .f32 R
    D.eval (D.fromBase (2 ^ 24 + 1)) = .ok (2 ^ 24) := by
  cases R <;> decide +kernel

/-- C25, the part that holds: bases of at most `2^p` in absolute value are returned unchanged.  Missing:
larger bases, refuted above. -/
theorem C25_small_partial (t : NumTy) (f : Fmt) (hf : f.Normal) (R : Rounding) (b : ℤ)
    (hb : |b| ≤ 2 ^ f.p) (hr : t.prim.InRange b) :
    (statIntFl t f R).eval ((statIntFl t f R).fromBase b) = .ok b := by
  have h1 : Fl.ofInt f b = .fin b := f.rnd_int hf hb
  have h2 : Fl.mul f (.fin b) (.fin 1) = .fin b := by
    have := Fl.mul_int hf (a := b) (b := 1) (by simpa using hb)
    simpa using this
  obtain ⟨z, hz, hz'⟩ := Fl.apply_fin hf R (b : ℚ)
  have hzb := Frac.rounds_unique R hz' (Frac.rounds_int R b)
  subst hzb
  simp only [h1, h2, hz, Res.bind_ok, Fl.toInt, Fl.truncQ_int, NumTy.max_eq, NumTy.min_eq, NumTy.minValue,
    NumTy.maxValue, min_eq_left hr.2, max_eq_left hr.1]

/-- C25, instances: the claim holds outright when the integer type has at most `p` bits, e.g. 8 and 16 bit
integers with `f32`, 32 bit integers with `f64`. -/
theorem C25_narrow_partial (t : NumTy) (f : Fmt) (hf : f.Normal) (hw : t.prim.bits ≤ f.p) (R : Rounding)
    (b : ℤ) (hr : t.prim.InRange b) :
    (statIntFl t f R).eval ((statIntFl t f R).fromBase b) = .ok b := by
  refine C25_small_partial t f hf R b ?_ hr
  have h1 : (2 : ℤ) ^ t.prim.bits ≤ 2 ^ f.p := pow_le_pow_right₀ (by norm_num) hw
  have h2 : (2 : ℤ) ^ (t.prim.bits - 1) ≤ 2 ^ t.prim.bits := pow_le_pow_right₀ (by norm_num) (by omega)
  have h3 : (0 : ℤ) < 2 ^ t.prim.bits := by positivity
  obtain ⟨l, h⟩ := hr
  unfold IntTy.lo at l
  unfold IntTy.hi at h
  rw [abs_le]
  split at l <;> rename_i hs <;> simp only [hs, if_true, if_false, Bool.false_eq_true] at h <;>
    constructor <;> omega

example : (⟨.i16, .prim, .debug⟩ : NumTy).prim.bits ≤ Fmt.f32.p ∧ (-32768 : ℤ) ∈ {b | IntTy.i16.InRange b} := by
  exact ⟨by decide, by decide⟩

/-! ## C31 for floats -/

/-- C31: rounding a finite `f32`/`f64` yields the documented integer, never panicking. -/
theorem C31_floats (f : Fmt) (hf : f.Normal) (R : Rounding) (q : ℚ) :
    ∃ z : ℤ, R.apply (Fl.ops f) (.fin q) = .ok (.fin z) ∧ Rounds R q z :=
  Fl.apply_fin hf R q

/-- C31: NaN and infinities stay what they are. -/
theorem C31_floats_special (f : Fmt) (hf : f.Normal) (R : Rounding) (x : Fl) (h : ∀ q, x ≠ .fin q) :
    R.apply (Fl.ops f) x = .ok x := by
  have hm1 : ∃ q, Fl.add f (.fin 0) (Fl.neg (.fin 1)) = .fin q := by
    have h2 : (1 : ℤ) ≤ 2 ^ f.p := one_le_pow₀ (by norm_num)
    have h1 := Fl.add_int hf (a := 0) (b := -1) (by simpa using h2)
    exact ⟨_, by simpa [Fl.neg] using h1⟩
  obtain ⟨m, hm⟩ := hm1
  cases x with
  | fin q => exact absurd rfl (h q)
  | nan => cases R <;> rfl
  | ninf => cases R <;> simp [Rounding.apply, Fl.lt, Fl.mapInt, hm, Fl.min]
  | pinf => cases R <;> simp [Rounding.apply, Fl.lt, Fl.mapInt, Fl.max]

/-! ## C25, exactly -/

/-- rounding an integer to a format gives an integer, or overflows -/
theorem Fmt.rnd_int_cases {f : Fmt} (hf : f.Normal) (b : ℤ) :
    (∃ z : ℤ, f.rnd b = .fin z) ∨ (f.rnd b = .pinf ∧ 0 < b) ∨ (f.rnd b = .ninf ∧ b < 0) := by
  by_cases hb : |b| ≤ 2 ^ f.p
  · exact .inl ⟨b, f.rnd_int hf hb⟩
  have hb := not_le.1 hb
  have h0 : b ≠ 0 := by
    rintro rfl
    simp only [abs_zero] at hb
    exact absurd hb (not_lt.2 (by positivity))
  have hbq : (2 : ℚ) ^ f.p ≤ |(b : ℚ)| := by exact_mod_cast hb.le
  have hlog : (f.p : ℤ) ≤ Int.log 2 |(b : ℚ)| := by
    refine (Int.zpow_le_iff_le_log (by norm_num) (abs_pos.2 (by exact_mod_cast h0))).1 ?_
    simpa using hbq
  have hu : 0 ≤ f.ulpExp (b : ℚ) := le_trans (by omega) (le_max_left _ _)
  obtain ⟨n, hn⟩ := Int.eq_ofNat_of_zero_le hu
  have hint : ∃ z : ℤ, ((rne ((b : ℚ) / 2 ^ f.ulpExp (b : ℚ)) : ℤ) : ℚ) * 2 ^ f.ulpExp (b : ℚ) = z :=
    ⟨rne ((b : ℚ) / 2 ^ f.ulpExp (b : ℚ)) * 2 ^ n, by
      rw [hn]; push_cast; rfl⟩
  obtain ⟨z, hz⟩ := hint
  unfold Fmt.rnd
  have h0q : (b : ℚ) ≠ 0 := by exact_mod_cast h0
  simp only [h0q, if_false, hz]
  have hpos : (0 : ℚ) < 2 ^ f.emax := by positivity
  have hp2 : (0 : ℚ) < 2 ^ f.ulpExp (b : ℚ) := zpow_pos (by norm_num) _
  split
  · rename_i h
    refine .inr (.inl ⟨rfl, ?_⟩)
    by_contra hneg
    have : (b : ℚ) ≤ 0 := by exact_mod_cast not_lt.1 hneg
    have h1 : (b : ℚ) / 2 ^ f.ulpExp (b : ℚ) ≤ 0 := div_nonpos_of_nonpos_of_nonneg this hp2.le
    have h2 : rne ((b : ℚ) / 2 ^ f.ulpExp (b : ℚ)) ≤ 0 := by
      have hfl : ⌊(b : ℚ) / 2 ^ f.ulpExp (b : ℚ)⌋ ≤ 0 := by
        have := Int.floor_le_floor h1; simpa using this
      rcases lt_or_eq_of_le hfl with h3 | h3
      · unfold rne; simp only; split_ifs <;> omega
      · have : (b : ℚ) / 2 ^ f.ulpExp (b : ℚ) = 0 := by
          have := Int.floor_le ((b : ℚ) / 2 ^ f.ulpExp (b : ℚ)); rw [h3] at this
          simp only [Int.cast_zero] at this
          linarith
        rw [this]; simp [rne]
    have h3 : (z : ℚ) ≤ 0 := by
      rw [← hz]
      exact mul_nonpos_of_nonpos_of_nonneg (by exact_mod_cast h2) hp2.le
    linarith
  · split
    · rename_i h
      refine .inr (.inr ⟨rfl, ?_⟩)
      by_contra hneg
      have : (0 : ℚ) ≤ b := by exact_mod_cast not_lt.1 hneg
      have h1 : 0 ≤ (b : ℚ) / 2 ^ f.ulpExp (b : ℚ) := div_nonneg this hp2.le
      have hfl : 0 ≤ ⌊(b : ℚ) / 2 ^ f.ulpExp (b : ℚ)⌋ := Int.floor_nonneg.2 h1
      have h2 : 0 ≤ rne ((b : ℚ) / 2 ^ f.ulpExp (b : ℚ)) := by
        unfold rne; simp only; split_ifs <;> omega
      have h3 : (0 : ℚ) ≤ z := by
        rw [← hz]
        exact mul_nonneg (by exact_mod_cast h2) hp2.le
      linarith
    · exact .inl ⟨z, rfl⟩

/-- `2^k - 1` is exact or rounds up to `2^k` -/
theorem Fmt.rnd_pred {f : Fmt} (hf : f.Normal) (k : ℕ) (hk : f.p < k) :
    f.rnd ((2 ^ k - 1 : ℤ) : ℚ) = if f.emax ≤ k then .pinf else .fin (2 ^ k) := by
  have hp := hf.p_pos
  have h2k : (2 : ℚ) ≤ 2 ^ k := by
    calc (2 : ℚ) = 2 ^ 1 := by norm_num
      _ ≤ 2 ^ k := pow_le_pow_right₀ (by norm_num) (by omega)
  have hq : (((2 ^ k - 1 : ℤ)) : ℚ) = 2 ^ k - 1 := by push_cast; rfl
  rw [hq]
  have hlog : Int.log 2 |(2 : ℚ) ^ k - 1| = k - 1 := by
    rw [abs_of_pos (by linarith)]
    have hpos : (0 : ℚ) < 2 ^ k - 1 := by linarith
    have e : (2 : ℚ) ^ k = 2 * 2 ^ (k - 1) := by
      rw [← pow_succ', Nat.sub_add_cancel (by omega)]
    apply le_antisymm
    · have : Int.log 2 ((2 : ℚ) ^ k - 1) < k := by
        refine (Int.lt_zpow_iff_log_lt (by norm_num) hpos).1 ?_
        have : (2 : ℚ) ^ k - 1 < 2 ^ k := by linarith
        exact_mod_cast this
      omega
    · refine (Int.zpow_le_iff_le_log (by norm_num) hpos).1 ?_
      have h1 : (1 : ℚ) ≤ 2 ^ (k - 1) := one_le_pow₀ (by norm_num)
      have : (2 : ℚ) ^ (k - 1) ≤ 2 ^ k - 1 := by linarith
      have e2 : ((k : ℤ) - 1) = ((k - 1 : ℕ) : ℤ) := by omega
      rw [e2, zpow_natCast]
      exact_mod_cast this
  obtain ⟨n, hn⟩ : ∃ n : ℕ, k = f.p + n ∧ 1 ≤ n := ⟨k - f.p, by omega, by omega⟩
  obtain ⟨hn, hn1⟩ := hn
  have hu : f.ulpExp ((2 : ℚ) ^ k - 1) = n := by
    unfold Fmt.ulpExp
    rw [hlog, max_eq_left]
    · omega
    · have := hf.emin_neg; omega
  have hpn : (0 : ℚ) < 2 ^ n := by positivity
  have h2n : (2 : ℚ) ≤ 2 ^ n := by
    calc (2 : ℚ) = 2 ^ 1 := by norm_num
      _ ≤ 2 ^ n := pow_le_pow_right₀ (by norm_num) hn1
  have hx : ((2 : ℚ) ^ k - 1) / 2 ^ (n : ℤ) = 2 ^ f.p - 1 / 2 ^ n := by
    rw [zpow_natCast, hn, pow_add]; field_simp
  have hhalf : (1 : ℚ) / 2 ^ n ≤ 1 / 2 := one_div_le_one_div_of_le (by norm_num) h2n
  have hinv : (0 : ℚ) < 1 / 2 ^ n := by positivity
  have hfl : ⌊(2 : ℚ) ^ f.p - 1 / 2 ^ n⌋ = 2 ^ f.p - 1 := by
    rw [Int.floor_eq_iff]
    push_cast
    constructor <;> linarith
  have hrne : rne ((2 : ℚ) ^ f.p - 1 / 2 ^ n) = 2 ^ f.p := by
    unfold rne
    simp only [hfl]
    push_cast
    have hodd : ¬ ((2 : ℤ) ^ f.p - 1) % 2 = 0 := by
      obtain ⟨j, hj⟩ : ∃ j, f.p = j + 1 := ⟨f.p - 1, by omega⟩
      rw [hj, pow_succ]; omega
    rw [if_neg (by rw [not_lt]; linarith), if_neg hodd]
    split <;> ring
  unfold Fmt.rnd
  rw [if_neg (by linarith)]
  simp only [hu, hx, hrne]
  have hr : (((2 : ℤ) ^ f.p : ℤ) : ℚ) * 2 ^ (n : ℤ) = 2 ^ k := by
    rw [zpow_natCast, hn, pow_add]; push_cast; rfl
  rw [hr]
  by_cases he : f.emax ≤ k
  · rw [if_pos he, if_pos (pow_le_pow_right₀ (by norm_num) he)]
  · rw [if_neg he, if_neg, if_neg]
    · have : (0 : ℚ) < 2 ^ f.emax := by positivity
      rw [not_le]; linarith
    · rw [not_le]
      exact pow_lt_pow_right₀ (by norm_num) (not_le.1 he)

/-- powers of two are exact or overflow -/
theorem Fmt.rnd_neg_pow {f : Fmt} (hf : f.Normal) (k : ℕ) :
    f.rnd ((-2 ^ k : ℤ) : ℚ) = if f.emax ≤ k then .ninf else .fin ((-2 ^ k : ℤ) : ℚ) := by
  have hp := hf.p_pos
  by_cases he : f.emax ≤ k
  · have hlog : Int.log 2 |((-2 ^ k : ℤ) : ℚ)| = k := by
      push_cast
      rw [abs_neg, abs_of_pos (by positivity), ← zpow_natCast,
        show ((2 : ℚ) ^ (k : ℤ)) = ((2 : ℕ) : ℚ) ^ (k : ℤ) by norm_cast]
      exact Int.log_zpow (by norm_num) _
    obtain ⟨n, hn⟩ : ∃ n : ℕ, k + 1 = f.p + n := ⟨k + 1 - f.p, by have := hf.emax_big; omega⟩
    have hu : f.ulpExp ((-2 ^ k : ℤ) : ℚ) = n := by
      unfold Fmt.ulpExp
      rw [hlog, max_eq_left]
      · omega
      · have := hf.emin_neg; have := hf.emax_big; omega
    obtain ⟨j, hj⟩ : ∃ j, f.p = j + 1 := ⟨f.p - 1, by omega⟩
    have hk : k = j + n := by omega
    have hx : ((-2 ^ k : ℤ) : ℚ) / 2 ^ (n : ℤ) = ((-2 ^ j : ℤ) : ℚ) := by
      rw [zpow_natCast, hk, pow_add]; push_cast; field_simp
    unfold Fmt.rnd
    have h0 : (0 : ℚ) < 2 ^ k := by positivity
    have h1 : (0 : ℚ) < 2 ^ f.emax := by positivity
    have h2 : (2 : ℚ) ^ f.emax ≤ 2 ^ k := pow_le_pow_right₀ (by norm_num) he
    rw [if_neg (by push_cast; linarith), if_pos he]
    simp only [hu, hx, rne_int]
    have hr : ((-2 ^ j : ℤ) : ℚ) * 2 ^ (n : ℤ) = -2 ^ k := by
      rw [zpow_natCast, hk, pow_add]; push_cast; ring
    rw [hr, if_neg (by rw [not_le]; linarith), if_pos (by linarith)]
  · rw [if_neg he]
    refine f.rnd_rep hf ⟨-1, k, by push_cast; simp, ?_, ?_, ?_⟩
    · simpa using one_le_pow₀ (by norm_num)
    · have := hf.emin_neg; omega
    · push_cast
      rw [abs_neg, abs_of_pos (by positivity)]
      exact pow_lt_pow_right₀ (by norm_num) (not_le.1 he)

/-- C25, what the code computes: the base is rounded to the nearest float, which is an integer again, and then
clamped to the integer type. -/
theorem C25_actual (t : NumTy) (f : Fmt) (hf : f.Normal) (R : Rounding) (b : ℤ) :
    (statIntFl t f R).eval ((statIntFl t f R).fromBase b) = .ok (Fl.toInt t.prim (f.rnd b)) := by
  have h1 : Fl.mul f (f.rnd b) (.fin 1) = f.rnd b ∧ R.apply (Fl.ops f) (f.rnd b) = .ok (f.rnd b) := by
    rcases f.rnd_int_cases hf b with ⟨z, hz⟩ | ⟨h, _⟩ | ⟨h, _⟩
    · rw [hz]
      constructor
      · show f.rnd (z * 1) = _
        rw [mul_one]
        exact f.rnd_rep hf (f.rep_of_rnd hf hz)
      · obtain ⟨z', hz', hr⟩ := Fl.apply_fin hf R (z : ℚ)
        rw [hz', Frac.rounds_unique R hr (Frac.rounds_int R z)]
    · rw [h]
      exact ⟨by simp [Fl.mul, Fl.infMul], C31_floats_special f hf R _ (by simp)⟩
    · rw [h]
      exact ⟨by simp [Fl.mul, Fl.infMul], C31_floats_special f hf R _ (by simp)⟩
  have hlo : t.prim.lo ≤ t.prim.hi := t.prim.lo_le_hi
  have hc : t.prim.lo ≤ Fl.toInt t.prim (f.rnd b) ∧ Fl.toInt t.prim (f.rnd b) ≤ t.prim.hi := by
    rcases f.rnd_int_cases hf b with ⟨z, hz⟩ | ⟨h, _⟩ | ⟨h, _⟩
    · rw [hz]; exact ⟨le_max_right _ _, max_le (min_le_right _ _) hlo⟩
    · rw [h]; exact ⟨hlo, le_refl _⟩
    · rw [h]; exact ⟨le_refl _, hlo⟩
  simp only [Fl.ofInt, h1.1, h1.2, Res.bind_ok, NumTy.max_eq, NumTy.min_eq, NumTy.minValue,
    NumTy.maxValue, min_eq_left hc.2, max_eq_left hc.1]

/-- C25, in numbers: up to `16777216` (`f32`) and `9007199254740992` (`f64`) bases are returned unchanged, the next one is
not, whatever the integer type that holds it -/
theorem C25_limits (t : NumTy) (R : Rounding) :
    (∀ b, t.prim.InRange b → |b| ≤ 16777216 → (statIntFl t .f32 R).eval ((statIntFl t .f32 R).fromBase b) = .ok b) ∧
    (∀ b, t.prim.InRange b → |b| ≤ 9007199254740992 →
      (statIntFl t .f64 R).eval ((statIntFl t .f64 R).fromBase b) = .ok b) ∧
    (t.prim.InRange 16777217 →
      (statIntFl t .f32 R).eval ((statIntFl t .f32 R).fromBase 16777217) = .ok 16777216) ∧
    (t.prim.InRange 9007199254740993 →
      (statIntFl t .f64 R).eval ((statIntFl t .f64 R).fromBase 9007199254740993) = .ok 9007199254740992) := by
  have hlo : t.prim.lo ≤ 0 := by
    unfold IntTy.lo
    split
    · have : (0 : ℤ) < 2 ^ (t.prim.bits - 1) := by positivity
      omega
    · exact le_rfl
  refine ⟨fun b hr hb => C25_small_partial t .f32 Fmt.normal_f32 R b (hb.trans (by decide)) hr,
    fun b hr hb => C25_small_partial t .f64 Fmt.normal_f64 R b (hb.trans (by decide)) hr, fun hr => ?_, fun hr => ?_⟩
  · rw [C25_actual t .f32 Fmt.normal_f32 R]
    have h : Fmt.f32.rnd ((16777217 : ℤ) : ℚ) = .fin 16777216 := by decide +kernel
    have h' : Fl.truncQ 16777216 = 16777216 := by decide +kernel
    rw [h, Fl.toInt, h', min_eq_left (by have := hr.2; omega), max_eq_left (by omega)]
  · rw [C25_actual t .f64 Fmt.normal_f64 R]
    have h : Fmt.f64.rnd ((9007199254740993 : ℤ) : ℚ) = .fin 9007199254740992 := by decide +kernel
    have h' : Fl.truncQ 9007199254740992 = 9007199254740992 := by decide +kernel
    rw [h, Fl.toInt, h', min_eq_left (by have := hr.2; omega), max_eq_left (by omega)]

example : IntTy.u32.InRange 16777217 ∧ IntTy.i64.InRange 9007199254740993 := by decide

/-- C24, C25: the ends of the two formats: the largest number, the first to become infinite, the least, and the first to
become zero -/
theorem C24_formats :
    Fmt.f32.rnd (2 ^ 128 - 2 ^ 104) = .fin 340282346638528859811704183484516925440 ∧
    Fmt.f32.rnd (2 ^ 128 - 2 ^ 103) = .pinf ∧ Fmt.f32.rnd (-(2 ^ 128 - 2 ^ 103)) = .ninf ∧
    Fmt.f32.rnd (1 / 2 ^ 149) = .fin (1 / 2 ^ 149) ∧ Fmt.f32.rnd (1 / 2 ^ 150) = .fin 0 ∧
    Fmt.f64.rnd (2 ^ 1024 - 2 ^ 971) = .fin (2 ^ 1024 - 2 ^ 971) ∧
    Fmt.f64.rnd (2 ^ 1024 - 2 ^ 970) = .pinf ∧ Fmt.f64.rnd (-(2 ^ 1024 - 2 ^ 970)) = .ninf ∧
    Fmt.f64.rnd (1 / 2 ^ 1074) = .fin (1 / 2 ^ 1074) ∧ Fmt.f64.rnd (1 / 2 ^ 1075) = .fin 0 := by
  decide +kernel

/-- C25, exactly: a base is returned unchanged if and only if it is a float, or one of the two ends of the integer
type (which rounding can only take outside of the type). -/
theorem C25_iff (t : NumTy) (f : Fmt) (hf : f.Normal) (R : Rounding) (b : ℤ) (hr : t.prim.InRange b) :
    (statIntFl t f R).eval ((statIntFl t f R).fromBase b) = .ok b ↔
      f.Rep b ∨ b = t.prim.lo ∨ b = t.prim.hi := by
  rw [C25_actual t f hf]
  have hlo : t.prim.lo ≤ t.prim.hi := t.prim.lo_le_hi
  constructor
  · intro h
    have h : Fl.toInt t.prim (f.rnd b) = b := Except.ok.inj h
    rcases f.rnd_int_cases hf b with ⟨z, hz⟩ | ⟨h', _⟩ | ⟨h', _⟩
    · rw [hz] at h
      simp only [Fl.toInt, Fl.truncQ_int] at h
      rcases le_total z t.prim.hi with h1 | h1
      · rw [min_eq_left h1] at h
        rcases le_total t.prim.lo z with h2 | h2
        · rw [max_eq_left h2] at h
          subst h
          exact .inl (f.rep_of_rnd hf hz)
        · rw [max_eq_right h2] at h; exact .inr (.inl h.symm)
      · rw [min_eq_right h1, max_eq_left hlo] at h; exact .inr (.inr h.symm)
    · rw [h'] at h; exact .inr (.inr h.symm)
    · rw [h'] at h; exact .inr (.inl h.symm)
  · intro h
    congr 1
    rcases h with h | rfl | rfl
    · rw [f.rnd_rep hf h]
      simp only [Fl.toInt, Fl.truncQ_int]
      rw [min_eq_left hr.2, max_eq_left hr.1]
    · have hl : f.rnd (t.prim.lo : ℚ) = .ninf ∨ f.rnd (t.prim.lo : ℚ) = .fin (t.prim.lo : ℚ) := by
        unfold IntTy.lo
        split
        · rw [f.rnd_neg_pow hf]; split
          · exact .inl rfl
          · exact .inr rfl
        · exact .inr (by simp [Fmt.rnd])
      rcases hl with hl | hl
      · rw [hl]; rfl
      · rw [hl]
        simp only [Fl.toInt, Fl.truncQ_int]
        rw [min_eq_left hlo, max_self]
    · have hl : ∀ k : ℕ, t.prim.hi = 2 ^ k - 1 → Fl.toInt t.prim (f.rnd (t.prim.hi : ℚ)) = t.prim.hi := by
        intro k hk
        by_cases hp : f.p < k
        · have h1 := f.rnd_pred hf k hp
          rw [← hk] at h1
          rw [h1]
          split
          · rfl
          · have h2 : ((2 : ℚ) ^ k) = ((2 ^ k : ℤ) : ℚ) := by push_cast; rfl
            rw [h2]
            simp only [Fl.toInt, Fl.truncQ_int]
            rw [min_eq_right (by omega), max_eq_left hlo]
        · have h1 : (2 : ℤ) ^ k ≤ 2 ^ f.p := pow_le_pow_right₀ (by norm_num) (not_lt.1 hp)
          have h2 : (1 : ℤ) ≤ 2 ^ k := one_le_pow₀ (by norm_num)
          rw [f.rnd_int hf (by rw [hk, abs_of_nonneg (by omega)]; omega)]
          simp only [Fl.toInt, Fl.truncQ_int]
          rw [min_self, max_eq_left hlo]
      by_cases hs : t.prim.signed = true
      · exact hl (t.prim.bits - 1) (by unfold IntTy.hi; rw [if_pos hs])
      · exact hl t.prim.bits (by unfold IntTy.hi; rw [if_neg hs])

/-- C25: `2^24 + 2` and `i32::MAX` are returned unchanged, `2^25 + 2` is not -/
example (R : Rounding) :
    let D := statIntFl ⟨.i32, .prim, .debug⟩ .f32 R
    D.eval (D.fromBase (2 ^ 24 + 2)) = .ok (2 ^ 24 + 2) ∧ D.eval (D.fromBase (2 ^ 31 - 1)) = .ok (2 ^ 31 - 1) ∧
      D.eval (D.fromBase (2 ^ 25 + 2)) = .ok (2 ^ 25) := by
  cases R <;> decide +kernel

end BSQ
