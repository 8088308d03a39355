import Verif.Proofs.RatioReturns
import Verif.Proofs.Simulate
/-!
# C72, C73: arithmetic and comparison of fractions
-/
namespace BSQ
namespace Frac
variable {t : NumTy}

theorem panicOnly_ite {α : Type} {p : Prop} [Decidable p] {x y : Res α} (hx : PanicOnly x) (hy : PanicOnly y) :
    PanicOnly (if p then x else y) := by split <;> assumption

theorem panicOnly_ok {α : Type} (x : α) : PanicOnly (.ok x : Res α) := fun e h => by cases h

theorem panicOnly_panic {α : Type} : PanicOnly (.error .panic : Res α) := fun e h => by cases h; rfl

theorem panicOnly_rem (x y : Int) : PanicOnly (t.rem x y) := by
  unfold NumTy.rem; split
  · exact panicOnly_panic
  · split
    · exact panicOnly_ok _
    · exact panicOnly_panic

theorem panicOnly_reduce (a : Frac) : PanicOnly (reduce t a) := by
  refine panicOnly_ite panicOnly_panic <| panicOnly_ite (panicOnly_ok _) <| panicOnly_ite (panicOnly_ok _) <|
    (panicOnly_gcd _ _).bind fun _ => (panicOnly_div _ _).bind fun _ => (panicOnly_div _ _).bind fun _ =>
      panicOnly_ite ((panicOnly_fit _).bind fun _ => (panicOnly_fit _).bind fun _ => panicOnly_ok _) (panicOnly_ok _)

theorem panicOnly_addSub {op : Int → Int → Res Int} (h : ∀ x y, PanicOnly (op x y)) (a b : Frac) :
    PanicOnly (addSub t op a b) :=
  panicOnly_ite ((h _ _).bind fun _ => panicOnly_reduce _) <|
    PanicOnly.bind ((panicOnly_gcd _ _).bind fun _ => (panicOnly_div _ _).bind fun _ =>
      (panicOnly_fit _).bind fun _ => panicOnly_fit _) fun _ =>
    (panicOnly_div _ _).bind fun _ => (panicOnly_fit _).bind fun _ => (panicOnly_div _ _).bind fun _ =>
      (panicOnly_fit _).bind fun _ => (h _ _).bind fun _ => panicOnly_reduce _

theorem panicOnly_mul (a b : Frac) : PanicOnly (mul t a b) :=
  (panicOnly_gcd _ _).bind fun _ => (panicOnly_gcd _ _).bind fun _ => (panicOnly_div _ _).bind fun _ =>
    (panicOnly_div _ _).bind fun _ => (panicOnly_fit _).bind fun _ => (panicOnly_div _ _).bind fun _ =>
    (panicOnly_div _ _).bind fun _ => (panicOnly_fit _).bind fun _ => panicOnly_reduce _

theorem panicOnly_divF (a b : Frac) : PanicOnly (div t a b) :=
  (panicOnly_gcd _ _).bind fun _ => (panicOnly_gcd _ _).bind fun _ => (panicOnly_div _ _).bind fun _ =>
    (panicOnly_div _ _).bind fun _ => (panicOnly_fit _).bind fun _ => (panicOnly_div _ _).bind fun _ =>
    (panicOnly_div _ _).bind fun _ => (panicOnly_fit _).bind fun _ => panicOnly_reduce _

/-- **C72** an operator either returns or panics, in every build: no undefined behaviour, no endless loop. -/
theorem C72_only_panics (o : Op) (a b : Frac) : PanicOnly (apply t o a b) := by
  cases o
  · exact panicOnly_addSub (fun _ _ => panicOnly_fit _) a b
  · exact panicOnly_addSub (fun _ _ => panicOnly_fit _) a b
  · exact panicOnly_mul a b
  · exact panicOnly_divF a b
  · exact panicOnly_addSub (fun _ _ => panicOnly_rem _ _) a b

/-- **C72** `Fraction::new` yields the quotient in lowest terms with a positive denominator, or panics. -/
theorem C72_new (h : t.ovf = .panic) (hb : 1 < t.prim.bits) {n d : Int} {r : Frac} (e : new t n d = .ok r) :
    d ≠ 0 ∧ r.Valid t ∧ r.toRat = (n : ℚ) / d :=
  have ⟨h1, h2, h3⟩ := new_ok h e
  ⟨h1, ⟨h2, reduce_fits hb e⟩, h3⟩

theorem div_fits (hb : 1 < t.prim.bits) {a b r : Frac} (e : div t a b = .ok r) : r.Fits t := by
  simp only [div, Res.bind_eq_ok] at e
  obtain ⟨_, _, _, _, _, _, _, _, n, hn, _, _, _, _, d, hd, e⟩ := e
  exact reduce_fits hb e

/-- **C72** with overflow checks, whatever an operator returns is exact and again a valid fraction. -/
theorem C72_exact (h : t.ovf = .panic) (hb : 1 < t.prim.bits) (o : Op) {a b r : Frac} (ha : a.Valid t)
    (hb' : b.Valid t) (e : apply t o a b = .ok r) : r.Valid t ∧ o.Exact a.toRat b.toRat r.toRat := by
  cases o with
  | add => have := add_ok h ha.1 hb'.1 e; exact ⟨⟨this.1, addSub_fits hb e⟩, this.2⟩
  | sub => have := sub_ok h ha.1.pos hb'.1.pos e; exact ⟨⟨this.1, addSub_fits hb e⟩, this.2⟩
  | mul => have := mul_ok h ha.1 hb'.1 e; exact ⟨⟨this.1, mul_fits hb e⟩, this.2⟩
  | div => have := div_ok h ha.1 hb'.1 e; exact ⟨⟨this.1, div_fits hb e⟩, this.2⟩
  | rem =>
    have := rem_ok h ha.1 hb'.1 e
    exact ⟨⟨this.1, addSub_fits hb e⟩, this.2.1, _, rounds_truncQ _, this.2.2⟩

/-- **C72** the same for the forms with an integer on the right. -/
theorem C72_exact_int (h : t.ovf = .panic) (hb : 1 < t.prim.bits) (o : Op) {a r : Frac} {z : Int} (ha : a.Valid t)
    (e : applyInt t o a z = .ok r) : r.Valid t ∧ o.Exact a.toRat z r.toRat := by
  simp only [applyInt, Res.bind_eq_ok] at e
  obtain ⟨b, hb', e⟩ := e
  obtain ⟨-, h2, h3⟩ := C72_new h hb hb'
  have := C72_exact h hb o ha h2 e
  rwa [h3, Int.cast_one, _root_.div_one] at this

/-- **C72** a zero denominator, a zero divisor and a zero modulus panic, in every build. -/
theorem C72_zero_denominator (n : Int) : new t n 0 = .error .panic := by simp [new, reduce]

theorem C72_zero_divisor {a b : Frac} (hz : b.num = 0) (o : Op) (ho : o = .div ∨ o = .rem) :
    apply t o a b = .error .panic := by
  have key : ∀ x : Res Frac, PanicOnly x → (∀ r, x ≠ .ok r) → x = .error .panic := by
    intro x h1 h2
    cases x with
    | ok r => exact absurd rfl (h2 r)
    | error e => rw [h1 e rfl]
  refine key _ (C72_only_panics o a b) fun r e => ?_
  rcases ho with rfl | rfl
  · simp only [apply, div, Res.bind_eq_ok, hz] at e
    obtain ⟨g1, -, g2, -, n1, -, n2, -, n, -, d1, -, d2, h2, d, h, e⟩ := e
    rw [NumTy.div_eq_ok] at h2
    have : d2 = 0 := by rw [h2.2.1, Int.zero_tdiv]
    subst this
    rw [NumTy.mul, mul_zero, NumTy.fit_inRange t.prim.inRange_zero] at h
    cases h
    simp [reduce] at e
  · simp only [apply, rem, addSub] at e
    split at e
    · simp only [hz, Res.bind_eq_ok, NumTy.rem_eq_ok] at e
      obtain ⟨_, h, -⟩ := e
      exact h.1 rfl
    · simp only [hz, Res.bind_eq_ok, NumTy.rem_eq_ok, NumTy.mul, zero_mul,
        NumTy.fit_inRange t.prim.inRange_zero] at e
      obtain ⟨_, -, _, -, _, -, _, -, _, h, _, h', -⟩ := e
      cases h
      exact h'.1 rfl

theorem div_agrees (t : NumTy) (a b : Frac) : Agrees (div t.checked a b) (div t a b) :=
  (gcd_agrees t _ _).bind fun _ => (gcd_agrees t _ _).bind fun _ =>
    (Agrees.refl _).bind fun _ => (Agrees.refl _).bind fun _ => (t.mul_agrees _ _).bind fun _ =>
    (Agrees.refl _).bind fun _ => (Agrees.refl _).bind fun _ => (t.mul_agrees _ _).bind fun _ => reduce_agrees t _

theorem applyOp_agrees (t : NumTy) (o : Op) (a b : Frac) : Agrees (apply t.checked o a b) (apply t o a b) := by
  cases o
  · exact add_agrees t a b
  · exact sub_agrees t a b
  · exact mul_agrees t a b
  · exact div_agrees t a b
  · exact addSub_agrees t (fun _ _ => Agrees.refl _) a b

/-- **C72** in every build an operator returns the exact result when the numbers met in the schoolbook calculation
are representable. -/
theorem C72_no_overflow (hb : 1 < t.prim.bits) (o : Op) {a b : Frac} (ha : a.Valid t) (hb' : b.Valid t)
    (h : o.Fits t a b) : ∃ r, apply t o a b = .ok r ∧ r.Valid t ∧ o.Exact a.toRat b.toRat r.toRat := by
  obtain ⟨r, e⟩ : ∃ r, apply t.checked o a b = .ok r := by
    cases o
    · exact add_returns (t := t.checked) ha hb' h
    · exact sub_returns (t := t.checked) ha hb' h
    · exact mul_returns (t := t.checked) ha hb' h
    · exact div_returns (t := t.checked) ha hb' h
    · exact rem_returns (t := t.checked) ha hb' h
  exact ⟨r, applyOp_agrees t o a b r e, C72_exact (t := t.checked) rfl hb o ha hb' e⟩

/-- what the hypotheses ask for: `1/2` and `-2/3` with 32 bits, in a release build -/
def i32r : NumTy := ⟨⟨32, true⟩, .prim, .release⟩

example : (Valid i32r ⟨1, 2⟩ ∧ Valid i32r ⟨-2, 3⟩) ∧ ∀ o : Op, o.Fits i32r ⟨1, 2⟩ ⟨-2, 3⟩ := by
  refine ⟨⟨⟨⟨by decide, by decide⟩, ?_⟩, ⟨⟨by decide, by decide⟩, ?_⟩⟩, ?_⟩
  · simp [IntTy.InRange, IntTy.lo, IntTy.hi, i32r]
  · simp [IntTy.InRange, IntTy.lo, IntTy.hi, i32r]
  · intro o; cases o <;> simp [Op.Fits, Small, IntTy.InRange, IntTy.lo, IntTy.hi, i32r]

example : apply i32r .rem ⟨7, 2⟩ ⟨-2, 3⟩ = .ok ⟨1, 6⟩ ∧ apply i32r .div ⟨7, 2⟩ ⟨-2, 3⟩ = .ok ⟨-21, 4⟩ := by
  decide +kernel

/-- without overflow checks the exactness is lost: the sum of two valid fractions is another number -/
theorem C72_release_wraps : ∃ a b r : Frac, a.Valid i32r ∧ b.Valid i32r ∧ apply i32r .add a b = .ok r ∧
    ¬ Op.Exact .add a.toRat b.toRat r.toRat := by
  refine ⟨⟨2147483647, 1⟩, ⟨1, 1⟩, ⟨-2147483648, 1⟩, ⟨⟨by decide, by decide⟩, ?_⟩, ⟨⟨by decide, by decide⟩, ?_⟩, by
    decide +kernel, ?_⟩
  · simp [IntTy.InRange, IntTy.lo, IntTy.hi, i32r]
  · simp [IntTy.InRange, IntTy.lo, IntTy.hi, i32r]
  · simp [Op.Exact, toRat]; norm_num

/-! ## Comparison -/

/-- **C73** comparing two valid fractions is comparing the rational numbers, in every build: it never overflows,
although the obvious cross multiplication would. -/
theorem C73_cmp {a b : Frac} (ha : a.Valid t) (hb : b.Valid t) : cmp t a b = .ok (compare a.toRat b.toRat) :=
  cmp_eq ha.1.pos hb.1.pos ha.2 hb.2

/-- **C73** two valid fractions compare equal only if they are the same fraction -/
theorem C73_eq {a b : Frac} (ha : a.Valid t) (hb : b.Valid t) : cmp t a b = .ok .eq ↔ a = b := by
  rw [C73_cmp ha hb, Except.ok.injEq, compare_eq_iff_eq]
  exact ⟨toRat_inj ha.1 hb.1, fun h => h ▸ rfl⟩

/-- **C73** `min` and `max` return one of their arguments, the smaller and the larger one -/
theorem C73_min {a b : Frac} (ha : a.Valid t) (hb : b.Valid t) :
    ∃ r, minByCmp t a b = .ok r ∧ (r = a ∨ r = b) ∧ r.toRat = Min.min a.toRat b.toRat := by
  simp only [minByCmp, C73_cmp ha hb, Res.bind_ok]
  rcases lt_trichotomy a.toRat b.toRat with h | h | h
  · rw [compare_lt_iff_lt.2 h]; exact ⟨a, rfl, .inl rfl, (min_eq_left h.le).symm⟩
  · rw [compare_eq_iff_eq.2 h]; exact ⟨a, rfl, .inl rfl, (min_eq_left h.le).symm⟩
  · rw [compare_gt_iff_gt.2 h]; exact ⟨b, rfl, .inr rfl, (min_eq_right h.le).symm⟩

theorem C73_max {a b : Frac} (ha : a.Valid t) (hb : b.Valid t) :
    ∃ r, maxByCmp t a b = .ok r ∧ (r = a ∨ r = b) ∧ r.toRat = Max.max a.toRat b.toRat := by
  simp only [maxByCmp, C73_cmp ha hb, Res.bind_ok]
  rcases lt_trichotomy a.toRat b.toRat with h | h | h
  · rw [compare_lt_iff_lt.2 h]; exact ⟨b, rfl, .inr rfl, (max_eq_right h.le).symm⟩
  · rw [compare_eq_iff_eq.2 h]; exact ⟨b, rfl, .inr rfl, (max_eq_right h.le).symm⟩
  · rw [compare_gt_iff_gt.2 h]; exact ⟨a, rfl, .inl rfl, (max_eq_left h.le).symm⟩

/-- the shorthand used for `<`, `min` and `max` in the rest of the model is what the algorithm computes -/
theorem C73_shorthand {a b : Frac} (ha : a.Valid t) (hb : b.Valid t) :
    (lt a b = true ↔ cmp t a b = .ok .lt) ∧ minByCmp t a b = .ok (min a b) ∧ maxByCmp t a b = .ok (max a b) := by
  have l1 := lt_iff ha.1.pos hb.1.pos
  have l2 := lt_iff hb.1.pos ha.1.pos
  refine ⟨?_, ?_, ?_⟩
  · rw [C73_cmp ha hb, Except.ok.injEq, compare_lt_iff_lt, l1]
  all_goals
    simp only [minByCmp, maxByCmp, C73_cmp ha hb, Res.bind_ok, min, max, l2]
    rcases lt_trichotomy a.toRat b.toRat with h | h | h
    · rw [compare_lt_iff_lt.2 h, if_neg h.asymm]
    · rw [compare_eq_iff_eq.2 h, if_neg h.not_gt]
    · rw [compare_gt_iff_gt.2 h, if_pos h]

example : cmp i32r ⟨2147483647, 2147483646⟩ ⟨2147483646, 2147483645⟩ = .ok .lt := by decide +kernel

theorem divModFloor_ok {x y q r : Int} (hy : t.prim.InRange y) (e : t.divModFloor x y = .ok (q, r)) :
    r.natAbs < y.natAbs ∧ t.prim.InRange r := by
  simp only [NumTy.divModFloor, Res.bind_eq_ok, NumTy.div_eq_ok, NumTy.rem_eq_ok] at e
  obtain ⟨d, -, m, ⟨h0, hm, -⟩, e⟩ := e
  have hlt : m.natAbs < y.natAbs := by
    rw [hm, Int.natAbs_tmod]; exact Nat.mod_lt _ (by omega)
  have z := t.prim.inRange_zero
  have e1 := hy.1; have e2 := hy.2; have z1 := z.1; have z2 := z.2
  split at e
  · rename_i h
    simp only [Res.bind_eq_ok, NumTy.add] at e
    obtain ⟨d', -, r', hr, e⟩ := e
    rw [NumTy.fit_inRange ⟨by omega, by omega⟩] at hr
    cases hr; cases e
    exact ⟨by omega, by omega, by omega⟩
  · cases e
    exact ⟨hlt, by omega, by omega⟩

theorem panicOnly_divModFloor (x y : Int) : PanicOnly (t.divModFloor x y) :=
  (panicOnly_div _ _).bind fun _ => (panicOnly_rem _ _).bind fun _ =>
    panicOnly_ite ((panicOnly_fit _).bind fun _ => (panicOnly_fit _).bind fun _ => panicOnly_ok _) (panicOnly_ok _)

/-- **C73** on any loaded fraction, valid or not, comparison ends: it returns or panics. -/
theorem C73_terminates {a b : Frac} (ha : t.prim.InRange a.den) (hb : t.prim.InRange b.den) :
    PanicOnly (cmp t a b) := by
  have key : ∀ (fuel : Nat) (a b : Frac), t.prim.InRange a.den → t.prim.InRange b.den → a.den.natAbs < fuel →
      PanicOnly (cmpFuel t fuel a b) := by
    intro fuel
    induction fuel with
    | zero => intro a b _ _ h; omega
    | succ fuel ih =>
      intro a b ha hb h
      unfold cmpFuel
      refine panicOnly_ite (panicOnly_ok _) <| panicOnly_ite (panicOnly_ite (panicOnly_ok _) (panicOnly_ok _)) ?_
      intro e he
      cases hx : t.divModFloor a.num a.den with
      | error e' => rw [hx] at he; cases he; exact panicOnly_divModFloor _ _ _ hx
      | ok x =>
        cases hy : t.divModFloor b.num b.den with
        | error e' => rw [hx, hy] at he; cases he; exact panicOnly_divModFloor _ _ _ hy
        | ok y =>
          have h1 := divModFloor_ok ha hx
          have h2 := divModFloor_ok hb hy
          rw [hx, hy] at he
          revert e
          change PanicOnly _
          simp only [Res.bind_ok]
          split
          · exact panicOnly_ok _
          · exact panicOnly_ok _
          · exact panicOnly_ite (panicOnly_ok _) <| panicOnly_ite (panicOnly_ok _) <|
              PanicOnly.bind (ih _ _ h1.2 h2.2 (by have := h1.1; simp only; omega)) fun _ => panicOnly_ok _
  exact key _ a b ha hb (by omega)

/-- **C73** a fraction loaded with a negative denominator is ordered wrongly: one over minus two comes after `1/3`. -/
theorem C73_negative_denominator : ∃ a b : Frac, a.toRat < b.toRat ∧ cmp i32r a b = .ok .gt ∧ a.den ≠ 0 ∧
    b.Valid i32r := by
  refine ⟨⟨1, -2⟩, ⟨1, 3⟩, by norm_num [toRat], by decide +kernel, by decide, ⟨by decide, by decide⟩, ?_⟩
  simp [IntTy.InRange, IntTy.lo, IntTy.hi, i32r]

end Frac
end BSQ
