import Verif.Proofs.InPlace
import Verif.Proofs.HMap
import Verif.Props.Ratio
import Verif.Props.Cast
/-!
# C103: what an operation that panics leaves behind
-/
namespace BSQ

/-- The in-place methods end as the functional ones do, with the same value. -/
structure InPlace.Refines {V : Type} {D : StatValue V} (I : InPlace D) : Prop where
  join : ∀ a o, (I.join o).outcome a = D.join a o
  add : ∀ a o, (I.add o).outcome a = D.add a o
  mul : ∀ a o, (I.mul o).outcome a = D.mul a o
  min : ∀ a o, (I.min o).outcome a = D.min a o
  max : ∀ a o, (I.max o).outcome a = D.max a o

/-- The same of the assigning operators of a `Float`. -/
structure AssignOps.Refines {F : Type} {O : FloatOps F} (M : AssignOps O) : Prop where
  add : ∀ a o, (M.add o).outcome a = O.add a o
  mul : ∀ a o, (M.mul o).outcome a = O.mul a o

theorem AssignOps.plain_refines {F : Type} (O : FloatOps F) : (AssignOps.plain O).Refines where
  add a o := by unfold AssignOps.plain; cases h : O.add a o <;> simp [Mut.outcome, Mut.assign, h, Except.map]
  mul a o := by unfold AssignOps.plain; cases h : O.mul a o <;> simp [Mut.outcome, Mut.assign, h, Except.map]

theorem AssignOps.frac_refines (t : NumTy) : (AssignOps.frac t).Refines where
  add a o := Frac.addAssign_outcome a o
  mul a o := Frac.mulAssign_outcome a o

/-- **C103** The assignments that the next theorem asks for: `+=` and `*=` of primitive floats and of fractions end as in
the rest of the model. -/
theorem C103_assign_refines :
    (∀ (F : Type) (O : FloatOps F), (AssignOps.plain O).Refines) ∧ ∀ t, (AssignOps.frac t).Refines :=
  ⟨fun _ O => AssignOps.plain_refines O, AssignOps.frac_refines⟩

section refines
open Mut

/-- **C103** Followed statement by statement, the methods of all value types end as in the rest of the model. -/
theorem C103_refines :
    (∀ t, (StatInt.inPlace t).Refines) ∧
    (∀ t R, (StatIntFraction.inPlace t R).Refines) ∧
    (∀ t R S, (StatIntPercentAdditive.inPlace t R S).Refines) ∧
    (∀ t R S, (StatIntPercent.inPlace t R S).Refines) ∧
    (∀ (F : Type) (t : NumTy) (O : FloatOps F) (M : AssignOps O) (_ : M.Refines) (toF : Int → F) (ofF : F → Int) R,
      (StatIntFloatMul.inPlace t M toF ofF R).Refines) ∧
    (∀ (F : Type) (O : FloatOps F) (M : AssignOps O) (_ : M.Refines),
      (StatFloat.inPlace M).Refines ∧ (StatFloatAdditive.inPlace M).Refines ∧ (StatMult.inPlace M).Refines) := by
  refine ⟨fun t => ?_, fun t R => ?_, fun t R S => ?_, fun t R S => ?_, fun F t O M hM toF ofF R => ?_,
    fun F O M hM => ⟨?_, ?_, ?_⟩⟩
  · constructor <;> intro a o <;>
      simp only [StatInt.inPlace, StatInt.onAddend, StatInt.onMult, outcome_bind, outcome_part,
        Frac.intAssign_outcome, outcome_update, bind_assoc, Res.bind_ok]
  · constructor <;> intro a o <;>
      simp only [StatIntFraction.inPlace, StatIntFraction.onAddend, StatIntFraction.onMult, outcome_bind, outcome_part,
        Frac.intAssign_outcome, Frac.mulAssign_outcome, outcome_update, bind_assoc, Res.bind_ok]
  · constructor <;> intro a o <;>
      simp only [StatIntPercentAdditive.inPlace, StatIntPercentAdditive.onAddend, StatIntPercentAdditive.onMult,
        outcome_bind, outcome_part, Frac.intAssign_outcome, outcome_update, bind_assoc, Res.bind_ok]
  · constructor <;> intro a o <;>
      simp only [StatIntPercent.inPlace, StatIntPercent.onAddend, StatIntPercent.onMult, outcome_bind, outcome_part,
        Frac.intAssign_outcome, Frac.mulAssign_outcome, Frac.addAssign_outcome, outcome_update, outcome_compute,
        bind_assoc, Res.bind_ok]
  · constructor <;> intro a o <;>
      simp only [StatIntFloatMul.inPlace, StatIntFloatMul.onAddend, StatIntFloatMul.onMult, outcome_bind, outcome_part,
        Frac.intAssign_outcome, hM.mul, outcome_update, bind_assoc, Res.bind_ok]
  · constructor <;> intro a o <;>
      simp only [StatFloat.inPlace, StatFloat.onAddend, StatFloat.onMult, outcome_bind, outcome_part,
        hM.add, hM.mul, outcome_update, bind_assoc, Res.bind_ok]
  · constructor <;> intro a o <;>
      simp only [StatFloatAdditive.inPlace, StatFloatAdditive.onAddend, StatFloatAdditive.onMult, outcome_bind,
        outcome_part, hM.add, outcome_update, bind_assoc, Res.bind_ok]
  · constructor <;> intro a o
    · simp only [StatMult.inPlace, StatMult.onMult, outcome_bind, outcome_part,
        hM.mul, outcome_update, bind_assoc, Res.bind_ok]
    · exact nomatch o
    all_goals simp only [StatMult.inPlace, StatMult.onMult, outcome_part, hM.mul, outcome_update]

end refines

namespace Mut
theorem atomic_part {S A : Type} {g : S → A} {p : S → A → S} {m : Mut A Unit} (hp : ∀ s, p s (g s) = s)
    (h : m.Atomic) : (part g p m).Atomic := by
  intro s e he
  rw [part_apply] at he ⊢
  simp only at he ⊢
  rw [h _ e he, hp]
end Mut

/-- **C103** Adding to and bounding an integer stat, and multiplying a `StatInt` or a `StatIntPercentAdditive`, either
return or leave the value as it was. -/
theorem C103_int_atomic (t : NumTy) (R : Rounding) (S : Int) :
    (∀ o, ((StatInt.inPlace t).add o).Atomic ∧ ((StatInt.inPlace t).mul o).Atomic ∧
      ((StatInt.inPlace t).min o).Atomic ∧ ((StatInt.inPlace t).max o).Atomic) ∧
    (∀ o, ((StatIntPercentAdditive.inPlace t R S).add o).Atomic ∧ ((StatIntPercentAdditive.inPlace t R S).mul o).Atomic ∧
      ((StatIntPercentAdditive.inPlace t R S).min o).Atomic ∧ ((StatIntPercentAdditive.inPlace t R S).max o).Atomic) ∧
    (∀ o, ((StatIntFraction.inPlace t R).add o).Atomic ∧
      ((StatIntFraction.inPlace t R).min o).Atomic ∧ ((StatIntFraction.inPlace t R).max o).Atomic) ∧
    (∀ o, ((StatIntPercent.inPlace t R S).add o).Atomic ∧
      ((StatIntPercent.inPlace t R S).min o).Atomic ∧ ((StatIntPercent.inPlace t R S).max o).Atomic) :=
  ⟨fun _ => ⟨Mut.atomic_part (fun _ => rfl) (Frac.intAssign_atomic _ _),
      Mut.atomic_part (fun _ => rfl) (Frac.intAssign_atomic _ _), Mut.atomic_update _, Mut.atomic_update _⟩,
   fun _ => ⟨Mut.atomic_part (fun _ => rfl) (Frac.intAssign_atomic _ _),
      Mut.atomic_part (fun _ => rfl) (Frac.intAssign_atomic _ _), Mut.atomic_update _, Mut.atomic_update _⟩,
   fun _ => ⟨Mut.atomic_part (fun _ => rfl) (Frac.intAssign_atomic _ _), Mut.atomic_update _, Mut.atomic_update _⟩,
   fun _ => ⟨Mut.atomic_part (fun _ => rfl) (Frac.intAssign_atomic _ _), Mut.atomic_update _, Mut.atomic_update _⟩⟩

/-- **C103** What a `join` of `StatInt`s leaves if it panics: nothing has changed if the sum overflows; if the product
does, the addends are already summed, and neither the multiplier nor the bounds are joined. -/
theorem C103_int_join (t : NumTy) (a o : StatInt) :
    (∀ e, t.add a.addend o.addend = .error e → (StatInt.inPlace t).join o a = (.error e, a)) ∧
    (∀ x e, t.add a.addend o.addend = .ok x → t.mul a.mult o.mult = .error e →
      (StatInt.inPlace t).join o a = (.error e, { a with addend := x })) := by
  constructor
  · intro e h
    have : StatInt.onAddend (Frac.intAssign t.add o.addend) a = (.error e, a) := by
      simp [StatInt.onAddend, Mut.part_apply, Frac.intAssign, h, Mut.assign_error]
    exact Mut.bind_error this
  · intro x e h h'
    have h1 : StatInt.onAddend (Frac.intAssign t.add o.addend) a = (.ok (), { a with addend := x }) := by
      simp [StatInt.onAddend, Mut.part_apply, Frac.intAssign, h, Mut.assign_ok]
    have h2 : StatInt.onMult (Frac.intAssign t.mul o.mult) { a with addend := x } =
        (.error e, { a with addend := x }) := by
      simp [StatInt.onMult, Mut.part_apply, Frac.intAssign, h', Mut.assign_error]
    exact (Mut.bind_ok h1).trans (Mut.bind_error h2)

/-- **C103** refuted: a `join` that panics leaves the value as it was.  For every primitive integer type with overflow
checks there are values whose `join` panics and leaves the addends summed. -/
theorem C103_refuted_join (p : IntTy) (hb : 1 < p.bits) :
    ∃ a o : StatInt, ((StatInt.inPlace ⟨p, .prim, .debug⟩).join o a).1 = .error .panic ∧
      ((StatInt.inPlace ⟨p, .prim, .debug⟩).join o).left a ≠ a ∧
      p.InRange a.addend ∧ p.InRange a.mult ∧ p.InRange o.addend ∧ p.InRange o.mult := by
  have h0 := p.inRange_zero
  have h1 := IntTy.inRange_one hb
  have hh : p.InRange p.hi := ⟨p.lo_le_hi, le_rfl⟩
  have h2 : 2 ≤ p.hi ∨ p.hi = 1 := by have := h1.2; omega
  have hm : ∃ x, p.InRange x ∧ ¬ p.InRange (x * x) := by
    refine ⟨?_, ?_⟩
    · exact if p.hi = 1 then p.lo else p.hi
    rcases h2 with h2 | h2
    · rw [if_neg (by omega)]
      exact ⟨hh, fun h => by have := h.2; nlinarith⟩
    · rw [if_pos h2]
      refine ⟨⟨le_rfl, p.lo_le_hi⟩, fun h => ?_⟩
      have hl : p.lo = -2 := by
        unfold IntTy.hi at h2
        unfold IntTy.lo
        have hpow : (2 : Int) ^ (p.bits - 1) ≥ 2 := by
          calc (2 : Int) ^ (p.bits - 1) ≥ 2 ^ 1 := pow_le_pow_right₀ (by norm_num) (by omega)
            _ = 2 := by norm_num
        have hpow' : (2 : Int) ^ p.bits ≥ 4 := by
          calc (2 : Int) ^ p.bits ≥ 2 ^ 2 := pow_le_pow_right₀ (by norm_num) (by omega)
            _ = 4 := by norm_num
        split at h2
        · rename_i hs
          rw [if_pos hs]; omega
        · omega
      have := h.2
      rw [hl, h2] at this
      omega
  obtain ⟨x, hx, hxx⟩ := hm
  have e1 : NumTy.add ⟨p, .prim, .debug⟩ 0 1 = .ok 1 := NumTy.fit_inRange (t := ⟨p, .prim, .debug⟩) h1
  have e2 : NumTy.mul ⟨p, .prim, .debug⟩ x x = .error .panic := by
    simp [NumTy.mul, NumTy.fit, hxx, NumTy.ovf]
  have key := (C103_int_join ⟨p, .prim, .debug⟩ ⟨0, 0, 0, x⟩ ⟨1, 0, 0, x⟩).2 1 .panic e1 e2
  refine ⟨⟨0, 0, 0, x⟩, ⟨1, 0, 0, x⟩, by rw [key], ?_, h0, hx, h1, hx⟩
  unfold Mut.left
  rw [key]
  simp

namespace Frac
variable {t : NumTy}

/-- **C103** `+=` of fractions with positive denominators, in builds with overflow checks, returns or leaves the
fraction as it was. -/
theorem C103_fraction_add_atomic (hp : t.ovf = .panic) (hb : 1 < t.prim.bits) {a o : Frac} (ha : 0 < a.den)
    (hr : t.prim.InRange a.den) (e : Err) (h : (addAssign t o a).1 = .error e) : (addAssign t o).left a = a := by
  unfold Mut.left
  unfold addAssign at h ⊢
  rw [Mut.bind_ok (Mut.get_apply a)] at h ⊢
  by_cases hd : a.den = o.den
  · rw [if_pos hd] at h ⊢
    cases hx : t.add a.num o.num with
    | error e' =>
      have : numPart (intAssign t.add o.num) a = (.error e', a) := by
        simp [numPart, Mut.part_apply, intAssign, hx, Mut.assign_error]
      rw [Mut.bind_error this]
    | ok x =>
      have : numPart (intAssign t.add o.num) a = (.ok (), { a with num := x }) := by
        simp [numPart, Mut.part_apply, intAssign, hx, Mut.assign_ok]
      rw [Mut.bind_ok this] at h
      obtain ⟨r, hr'⟩ := reduce_returns_pos (t := t) (n := x) ha (NumTy.inRange_of_fit (by omega) hx) hr
      rw [← reduceMut_outcome, Mut.outcome_ok] at hr'
      have h' : (reduceMut t ⟨x, a.den⟩).1 = .error e := h
      rw [hr'] at h'
      cases h'
  · rw [if_neg hd] at h ⊢
    cases hx : sumOver t a o with
    | error e' => rw [Mut.bind_error (Mut.assign_error e' a)]
    | ok x =>
      exfalso
      rw [hx, Mut.bind_ok (Mut.assign_ok x a)] at h
      obtain ⟨xn, xd⟩ := x
      simp only [sumOver, Res.bind_eq_ok] at hx
      obtain ⟨l, hl, qa, hqa, na, hna, qb, hqb, nb, hnb, n, hn, hx⟩ := hx
      cases hx
      have hl0 : 0 ≤ xd := by
        simp only [lcm, Res.bind_eq_ok] at hl
        obtain ⟨_, _, _, _, _, _, hl⟩ := hl
        rw [((NumTy.fit_panic hp).1 hl).1]
        exact Int.natCast_nonneg _
      have hlr : t.prim.InRange xd := by
        simp only [lcm, Res.bind_eq_ok] at hl
        obtain ⟨_, _, _, _, _, _, hl⟩ := hl
        exact NumTy.inRange_of_fit (by omega) hl
      by_cases hz : xd = 0
      · -- the denominator is zero only if both denominators' product is, which is excluded
        subst hz
        simp only [lcm, Res.bind_eq_ok] at hl
        obtain ⟨g, hg, q, hq, r, hr', hl⟩ := hl
        have h1 := ((NumTy.fit_panic hp).1 hl).1
        have h2 : r = 0 := by omega
        have h3 := ((NumTy.fit_panic hp).1 hr').1
        have hqb0 := (NumTy.div_eq_ok.1 hqb).1
        have hq0 : q = 0 := by
          rw [h2] at h3
          rcases mul_eq_zero.1 h3.symm with h4 | h4
          · omega
          · exact h4
        have hg' := gcd_ok hp hg
        obtain ⟨hg0, hq', _⟩ := NumTy.div_eq_ok.1 hq
        have hdvd : g ∣ o.den := by rw [hg']; exact Int.gcd_dvd_right ..
        obtain ⟨k, hk⟩ := hdvd
        rw [hk, Int.mul_tdiv_cancel_left _ hg0] at hq'
        apply hqb0
        rw [hk, ← hq', hq0, mul_zero]
      · obtain ⟨r, hr'⟩ := reduce_returns_pos (t := t) (n := xn) (d := xd) (by omega)
          (NumTy.inRange_of_fit (by omega) hn) hlr
        rw [← reduceMut_outcome, Mut.outcome_ok] at hr'
        have h' : (reduceMut t ⟨xn, xd⟩).1 = .error e := h
        rw [hr'] at h'
        cases h'

/-- **C103** What `*=` of representable fractions with positive denominators leaves, in builds with overflow checks.
With `g` and `h` the divisors cancelled crosswise: if the product of the numerators overflows, the numerator is left
divided by `g`; if the product of the denominators does, the numerator is left multiplied and the denominator
divided by `h`; otherwise it returns. -/
theorem C103_fraction_mul (hp : t.ovf = .panic) {a o : Frac} (ha : 0 < a.den) (ho : 0 < o.den)
    (fa : a.Fits t) (fo : o.Fits t) :
    let g : Int := Int.gcd a.num o.den
    let h : Int := Int.gcd a.den o.num
    let n := a.num / g * (o.num / h)
    let d := a.den / h * (o.den / g)
    (¬ t.prim.InRange n → mulAssign t o a = (.error .panic, ⟨a.num / g, a.den⟩)) ∧
    (t.prim.InRange n → ¬ t.prim.InRange d → mulAssign t o a = (.error .panic, ⟨n, a.den / h⟩)) ∧
    (t.prim.InRange n → t.prim.InRange d → ∃ r, mulAssign t o a = (.ok (), r)) := by
  obtain ⟨an, ad⟩ := a
  obtain ⟨on, od⟩ := o
  simp only at ha ho
  obtain ⟨g, x, y, hg, eg, hx, hy⟩ := gcd_returns (t := t) (x := an) ho.ne' (by rw [abs_of_pos ho]; exact fo.2.2)
  obtain ⟨h, u, w, hh, eh, hu, hw⟩ := gcd_returns' (t := t) (y := on) ha.ne' (by rw [abs_of_pos ha]; exact fa.2.2)
  have hg' := gcd_ok hp eg
  have hh' := gcd_ok hp eh
  simp only
  rw [← hg', ← hh']
  have hny := fa.1
  have hnw := fo.1
  have hdy := fo.2
  have hdu := fa.2
  simp only at hny hnw hdy hdu
  have inr : ∀ {k z : Int}, 0 < k → t.prim.InRange (k * z) → t.prim.InRange z := by
    intro k z hk hkz
    have h0 := t.prim.inRange_zero
    rcases le_or_gt 0 z with hs | hs
    · exact ⟨h0.1.trans hs, (show z ≤ k * z by nlinarith).trans hkz.2⟩
    · exact ⟨hkz.1.trans (show k * z ≤ z by nlinarith), hs.le.trans h0.2⟩
  have start : ∀ m : Frac → Int → Int → Mut Frac Unit, (do
      let a ← Mut.get
      let gad ← Mut.compute (gcd t a.num od)
      let gbc ← Mut.compute (gcd t a.den on)
      m a gad gbc : Mut Frac Unit) ⟨an, ad⟩ = m ⟨an, ad⟩ g h ⟨an, ad⟩ := by
    intro m
    rw [Mut.bind_ok (Mut.get_apply _)]
    have e1 : (Mut.compute (gcd t an od) : Mut Frac Int) ⟨an, ad⟩ = (.ok g, ⟨an, ad⟩) := by rw [Mut.compute_apply, eg]
    have e2 : (Mut.compute (gcd t ad on) : Mut Frac Int) ⟨an, ad⟩ = (.ok h, ⟨an, ad⟩) := by rw [Mut.compute_apply, eh]
    rw [Mut.bind_ok e1, Mut.bind_ok e2]
  have qx : an / g = x := by rw [hx, Int.mul_ediv_cancel_left _ hg.ne']
  have qw : on / h = w := by rw [hw, Int.mul_ediv_cancel_left _ hh.ne']
  have qu : ad / h = u := by rw [hu, Int.mul_ediv_cancel_left _ hh.ne']
  have qy : od / g = y := by rw [hy, Int.mul_ediv_cancel_left _ hg.ne']
  rw [qx, qw, qu, qy]
  have dx : t.div an g = .ok x := by rw [hx]; exact div_mul_left hg (inr hg (hx ▸ hny))
  have dw : t.div on h = .ok w := by rw [hw]; exact div_mul_left hh (inr hh (hw ▸ hnw))
  have du : t.div ad h = .ok u := by rw [hu]; exact div_mul_left hh (inr hh (hu ▸ hdu))
  have dy : t.div od g = .ok y := by rw [hy]; exact div_mul_left hg (inr hg (hy ▸ hdy))
  have s1 : numPart (intAssign t.div g) ⟨an, ad⟩ = (.ok (), ⟨x, ad⟩) := by
    simp [numPart, Mut.part_apply, intAssign, dx, Mut.assign_ok]
  have s2 : (Mut.compute (t.div on h) : Mut Frac Int) ⟨x, ad⟩ = (.ok w, ⟨x, ad⟩) := by rw [Mut.compute_apply, dw]
  have hupos : 0 < u := pos_of_mul_pos_right (hu ▸ ha) hh.le
  have hypos : 0 < y := pos_of_mul_pos_right (hy ▸ ho) hg.le
  have run : mulAssign t ⟨on, od⟩ ⟨an, ad⟩ = (do
      numPart (intAssign t.mul w)
      denPart (intAssign t.div h)
      let d2 ← Mut.compute (t.div od g)
      denPart (intAssign t.mul d2)
      reduceMut t : Mut Frac Unit) ⟨x, ad⟩ := by
    unfold mulAssign
    rw [start (fun _ gad gbc => do
      numPart (intAssign t.div gad)
      let n2 ← Mut.compute (t.div on gbc)
      numPart (intAssign t.mul n2)
      denPart (intAssign t.div gbc)
      let d2 ← Mut.compute (t.div od gad)
      denPart (intAssign t.mul d2)
      reduceMut t)]
    rw [Mut.bind_ok s1, Mut.bind_ok s2]
  rw [run]
  have mulErr : ∀ p q, ¬ t.prim.InRange (p * q) → t.mul p q = .error .panic := by
    intro p q hpq
    simp [NumTy.mul, NumTy.fit, hpq, hp]
  have rest : t.prim.InRange (x * w) → (do
      numPart (intAssign t.mul w)
      denPart (intAssign t.div h)
      let d2 ← Mut.compute (t.div od g)
      denPart (intAssign t.mul d2)
      reduceMut t : Mut Frac Unit) ⟨x, ad⟩ = (do
      denPart (intAssign t.mul y)
      reduceMut t : Mut Frac Unit) ⟨x * w, u⟩ := by
    intro hn
    have m1 : numPart (intAssign t.mul w) ⟨x, ad⟩ = (.ok (), ⟨x * w, ad⟩) := by
      have : t.mul x w = .ok (x * w) := NumTy.fit_inRange hn
      simp [numPart, Mut.part_apply, intAssign, this, Mut.assign_ok]
    have m2 : denPart (intAssign t.div h) ⟨x * w, ad⟩ = (.ok (), ⟨x * w, u⟩) := by
      simp [denPart, Mut.part_apply, intAssign, du, Mut.assign_ok]
    have m3 : (Mut.compute (t.div od g) : Mut Frac Int) ⟨x * w, u⟩ = (.ok y, ⟨x * w, u⟩) := by
      rw [Mut.compute_apply, dy]
    rw [Mut.bind_ok m1, Mut.bind_ok m2, Mut.bind_ok m3]
  refine ⟨fun hn => ?_, fun hn hd => ?_, fun hn hd => ?_⟩
  · have m1 : numPart (intAssign t.mul w) ⟨x, ad⟩ = (.error .panic, ⟨x, ad⟩) := by
      simp [numPart, Mut.part_apply, intAssign, mulErr _ _ hn, Mut.assign_error]
    exact Mut.bind_error m1
  · rw [rest hn]
    have m4 : denPart (intAssign t.mul y) ⟨x * w, u⟩ = (.error .panic, ⟨x * w, u⟩) := by
      simp [denPart, Mut.part_apply, intAssign, mulErr _ _ hd, Mut.assign_error]
    exact Mut.bind_error m4
  · rw [rest hn]
    have m4 : denPart (intAssign t.mul y) ⟨x * w, u⟩ = (.ok (), ⟨x * w, u * y⟩) := by
      have : t.mul u y = .ok (u * y) := NumTy.fit_inRange hd
      simp [denPart, Mut.part_apply, intAssign, this, Mut.assign_ok]
    rw [Mut.bind_ok m4]
    obtain ⟨r, hr⟩ := reduce_returns_pos (t := t) (n := x * w) (d := u * y) (mul_pos hupos hypos) hn hd
    rw [← reduceMut_outcome, Mut.outcome_ok] at hr
    exact ⟨r, hr⟩

/-- **C103** As numbers: what is left is the fraction divided by `g`, or the product multiplied by the denominator still
to be applied, never with a denominator of zero and always representable. -/
theorem C103_fraction_left (hp : t.ovf = .panic) {a o : Frac} (ha : 0 < a.den) (ho : 0 < o.den)
    (fa : a.Fits t) (fo : o.Fits t) (e : Err) (he : (mulAssign t o a).1 = .error e) :
    let r := (mulAssign t o).left a
    0 < r.den ∧ r.Fits t ∧
      (r.toRat = a.toRat / (Int.gcd a.num o.den : ℚ) ∨
       r.toRat = a.toRat * o.toRat * ((o.den / Int.gcd a.num o.den : Int) : ℚ)) := by
  obtain ⟨h1, h2, h3⟩ := C103_fraction_mul hp ha ho fa fo
  have hg : (0 : Int) < Int.gcd a.num o.den := by exact_mod_cast Int.gcd_pos_of_ne_zero_right _ ho.ne'
  have hh : (0 : Int) < Int.gcd a.den o.num := by exact_mod_cast Int.gcd_pos_of_ne_zero_left _ ha.ne'
  obtain ⟨x, hx⟩ : (Int.gcd a.num o.den : Int) ∣ a.num := Int.gcd_dvd_left ..
  obtain ⟨y, hy⟩ : (Int.gcd a.num o.den : Int) ∣ o.den := Int.gcd_dvd_right ..
  obtain ⟨u, hu⟩ : (Int.gcd a.den o.num : Int) ∣ a.den := Int.gcd_dvd_left ..
  obtain ⟨w, hw⟩ : (Int.gcd a.den o.num : Int) ∣ o.num := Int.gcd_dvd_right ..
  obtain ⟨g, hgg⟩ : ∃ g : Int, g = Int.gcd a.num o.den := ⟨_, rfl⟩
  obtain ⟨h, hhh⟩ : ∃ h : Int, h = Int.gcd a.den o.num := ⟨_, rfl⟩
  rw [← hgg] at hg hx hy h1 h2 h3
  rw [← hhh] at hh hu hw h1 h2 h3
  have hgq : ((Int.gcd a.num o.den : ℕ) : ℚ) = (g : ℚ) := by rw [hgg]; norm_cast
  rw [hgq, ← hgg]
  have qx : a.num / g = x := by rw [hx, Int.mul_ediv_cancel_left _ hg.ne']
  have qw : o.num / h = w := by rw [hw, Int.mul_ediv_cancel_left _ hh.ne']
  have qu : a.den / h = u := by rw [hu, Int.mul_ediv_cancel_left _ hh.ne']
  have qy : o.den / g = y := by rw [hy, Int.mul_ediv_cancel_left _ hg.ne']
  rw [qx, qw, qu, qy] at h2 h3
  rw [qx, qw] at h1
  rw [qy]
  have hupos : 0 < u := pos_of_mul_pos_right (hu ▸ ha) hh.le
  have hypos : 0 < y := pos_of_mul_pos_right (hy ▸ ho) hg.le
  have inr : ∀ {k z : Int}, 0 < k → t.prim.InRange (k * z) → t.prim.InRange z := by
    intro k z hk hkz
    have h0 := t.prim.inRange_zero
    rcases le_or_gt 0 z with hs | hs
    · exact ⟨h0.1.trans hs, (show z ≤ k * z by nlinarith).trans hkz.2⟩
    · exact ⟨hkz.1.trans (show k * z ≤ z by nlinarith), hs.le.trans h0.2⟩
  have hgq0 : (g : ℚ) ≠ 0 := by exact_mod_cast hg.ne'
  have hhq0 : (h : ℚ) ≠ 0 := by exact_mod_cast hh.ne'
  have huq : (u : ℚ) ≠ 0 := by exact_mod_cast hupos.ne'
  have hyq : (y : ℚ) ≠ 0 := by exact_mod_cast hypos.ne'
  by_cases hn : t.prim.InRange (x * w)
  · by_cases hd : t.prim.InRange (u * y)
    · obtain ⟨r, hr⟩ := h3 hn hd
      rw [hr] at he
      cases he
    · have hl : (mulAssign t o).left a = ⟨x * w, u⟩ := by unfold Mut.left; rw [h2 hn hd]
      rw [hl]
      refine ⟨hupos, ⟨hn, inr hh (hu ▸ fa.2)⟩, Or.inr ?_⟩
      simp only [toRat]
      rw [hx, hy, hu, hw]
      push_cast
      field_simp
  · have hl : (mulAssign t o).left a = ⟨x, a.den⟩ := by unfold Mut.left; rw [h1 hn]
    rw [hl]
    refine ⟨ha, ⟨inr hg (hx ▸ fa.1), fa.2⟩, Or.inl ?_⟩
    simp only [toRat]
    rw [hx]
    push_cast
    field_simp

end Frac

/-- **C103** The other `join`s: the addends are summed first; when the multipliers then panic, theirs is what the
assignment to them leaves, and the bounds are not joined. -/
theorem C103_join_left (t : NumTy) (R : Rounding) (S : Int) :
    (∀ (a o : StatIntFraction) x e m, t.add a.addend o.addend = .ok x →
      Frac.mulAssign t.primInt o.mult a.mult = (.error e, m) →
      (StatIntFraction.inPlace t R).join o a = (.error e, { a with addend := x, mult := m })) ∧
    (∀ (a o : StatIntPercent) x e m, t.add a.addend o.addend = .ok x →
      Frac.addAssign t.primInt o.mult a.mult = (.error e, m) →
      (StatIntPercent.inPlace t R S).join o a = (.error e, { a with addend := x, mult := m })) ∧
    (∀ (a o : StatIntPercentAdditive) x e, t.add a.addend o.addend = .ok x →
      t.add a.mult o.mult = .error e →
      (StatIntPercentAdditive.inPlace t R S).join o a = (.error e, { a with addend := x })) := by
  refine ⟨fun a o x e m h h' => ?_, fun a o x e m h h' => ?_, fun a o x e h h' => ?_⟩
  · have h1 : StatIntFraction.onAddend (Frac.intAssign t.add o.addend) a = (.ok (), { a with addend := x }) := by
      simp [StatIntFraction.onAddend, Mut.part_apply, Frac.intAssign, h, Mut.assign_ok]
    have h2 : StatIntFraction.onMult (Frac.mulAssign t.primInt o.mult) { a with addend := x } =
        (.error e, { a with addend := x, mult := m }) := by
      simp [StatIntFraction.onMult, Mut.part_apply, h']
    exact (Mut.bind_ok h1).trans (Mut.bind_error h2)
  · have h1 : StatIntPercent.onAddend (Frac.intAssign t.add o.addend) a = (.ok (), { a with addend := x }) := by
      simp [StatIntPercent.onAddend, Mut.part_apply, Frac.intAssign, h, Mut.assign_ok]
    have h2 : StatIntPercent.onMult (Frac.addAssign t.primInt o.mult) { a with addend := x } =
        (.error e, { a with addend := x, mult := m }) := by
      simp [StatIntPercent.onMult, Mut.part_apply, h']
    exact (Mut.bind_ok h1).trans (Mut.bind_error h2)
  · have h1 : StatIntPercentAdditive.onAddend (Frac.intAssign t.add o.addend) a = (.ok (), { a with addend := x }) := by
      simp [StatIntPercentAdditive.onAddend, Mut.part_apply, Frac.intAssign, h, Mut.assign_ok]
    have h2 : StatIntPercentAdditive.onMult (Frac.intAssign t.add o.mult) { a with addend := x } =
        (.error e, { a with addend := x }) := by
      simp [StatIntPercentAdditive.onMult, Mut.part_apply, Frac.intAssign, h', Mut.assign_error]
    exact (Mut.bind_ok h1).trans (Mut.bind_error h2)

/-- **C103** refuted for multiplying by a fraction: `6/5 *= 1073741824/3` overflows an `i32` and leaves `2/5`; a stat with
base 10 gave 12 before and gives 4 after the panic is caught. -/
theorem C103_refuted_fraction :
    let D := statIntFraction ⟨.i32, .prim, .debug⟩ .truncate
    let a : StatIntFraction := ⟨10, -2147483648, 2147483647, ⟨6, 5⟩⟩
    let m := (StatIntFraction.inPlace ⟨.i32, .prim, .debug⟩ .truncate).mul ⟨1073741824, 3⟩
    (m a).1 = .error .panic ∧ m.left a = { a with mult := ⟨2, 5⟩ } ∧
      D.eval a = .ok 12 ∧ D.eval (m.left a) = .ok 4 := by decide +kernel

/-- **C103** Without overflow checks the product of the denominators can wrap to zero: `1/65536 *= 1/65536` panics and
leaves `1/0`. -/
theorem C103_refuted_release :
    let m := (StatIntFraction.inPlace ⟨.i32, .prim, .release⟩ .truncate).mul ⟨1, 65536⟩
    ∀ a : StatIntFraction, a.mult = ⟨1, 65536⟩ → (m a).1 = .error .panic ∧ (m.left a).mult = ⟨1, 0⟩ := by
  intro m a ha
  have h : Frac.mulAssign ⟨.i32, .prim, .release⟩ ⟨1, 65536⟩ ⟨1, 65536⟩ = (.error .panic, ⟨1, 0⟩) := by decide +kernel
  have hm : m a = (.error .panic, { a with mult := ⟨1, 0⟩ }) := by
    show StatIntFraction.onMult (Frac.mulAssign ⟨.i32, .prim, .release⟩ ⟨1, 65536⟩) a = _
    simp [StatIntFraction.onMult, Mut.part_apply, ha, h]
  unfold Mut.left
  rw [hm]
  exact ⟨rfl, rfl⟩

/-- **C103** With a multiplier of `1/0` every evaluation panics, whatever is added afterwards. -/
theorem C103_release_stuck (t : NumTy) (R : Rounding) (a : StatIntFraction) (h : a.mult = ⟨1, 0⟩) :
    (statIntFraction t R).eval a = .error .panic := by
  have hm : Frac.mul t.primInt a.mult (t.intoFraction a.addend) = .error .panic := by
    rw [h]
    have po : PanicOnly (Frac.mul t.primInt ⟨1, 0⟩ (t.intoFraction a.addend)) :=
      Frac.panicOnly_mul _ _
    cases hx : Frac.mul t.primInt ⟨1, 0⟩ (t.intoFraction a.addend) with
    | error e => rw [po e hx]
    | ok r =>
      exfalso
      simp only [Frac.mul, NumTy.intoFraction, Frac.newRaw, Res.bind_eq_ok] at hx
      obtain ⟨g, _, k, _, n1, _, n2, _, n, _, d1, hd1, d2, _, d, hd, hr⟩ := hx
      have h1 : d1 = 0 := by rw [(NumTy.div_eq_ok.1 hd1).2.1]; exact Int.zero_tdiv k
      rw [h1, NumTy.mul, Int.zero_mul] at hd
      have h2 : d = 0 := by
        rw [NumTy.fit_inRange t.primInt.prim.inRange_zero] at hd
        cases hd
        rfl
      rw [h2] at hr
      simp [Frac.reduce] at hr
  show (Frac.mul t.primInt a.mult (t.intoFraction a.addend) >>= _) = _
  rw [hm]
  rfl

/-- **C103** With a negative denominator (only a loaded fraction has one) and the least number as numerator, in lowest
terms, cancelling panics in builds with overflow checks, and leaves zero: `num_rational` takes the numerator out while it
computes its negation.  Adding nothing does so. -/
theorem C103_negative_left (t : NumTy) (hp : t.ovf = .panic) (hb : 1 < t.prim.bits) (hs : t.prim.signed = true) (d : Int)
    (hd : d < 0) (hr : t.prim.InRange d) (hg : Int.gcd t.prim.lo d = 1) (hne : t.prim.lo ≠ d) :
    Frac.reduceMut t ⟨t.prim.lo, d⟩ = (.error .panic, ⟨0, d⟩) ∧
    Frac.addAssign t ⟨0, d⟩ ⟨t.prim.lo, d⟩ = (.error .panic, ⟨0, d⟩) := by
  have hlo : t.prim.InRange t.prim.lo := ⟨le_rfl, t.prim.lo_le_hi⟩
  have hneg : t.prim.lo < 0 := lt_of_le_of_lt hr.1 hd
  have h1 := IntTy.inRange_one hb
  have hov : ¬ t.prim.InRange (0 - t.prim.lo) := by
    intro h
    have h2 := h.2
    simp only [IntTy.lo, IntTy.hi, hs, if_true] at h2
    omega
  have key : Frac.reduceMut t ⟨t.prim.lo, d⟩ = (.error .panic, ⟨0, d⟩) := by
    have hgcd : Frac.gcd t t.prim.lo d = .ok 1 := by
      rw [Frac.gcd, hg]; exact NumTy.fit_inRange h1
    have hdiv : ∀ x, t.prim.InRange x → t.div x 1 = .ok x := by
      intro x hx
      simp [NumTy.div, Int.tdiv_one, hx]
    have hsub : t.sub 0 t.prim.lo = .error .panic := by
      cases h : t.sub 0 t.prim.lo with
      | ok x => exact absurd ((NumTy.fit_panic hp).1 h).2 (by
          have := ((NumTy.fit_panic hp).1 h).1
          subst this
          exact hov)
      | error e =>
        simp only [NumTy.sub, NumTy.fit, hov, if_false, hp] at h
        cases h
        rfl
    unfold Frac.reduceMut
    simp only [hd.ne, hneg.ne, hne, if_false]
    rw [Mut.bind_apply]
    simp only [Mut.compute, hgcd]
    simp [Mut.bind_apply, Frac.numPart, Frac.denPart, Mut.part_apply, Frac.replaceWith, hdiv _ hlo, hdiv _ hr, Mut.get, hd,
      hsub]
  refine ⟨key, ?_⟩
  unfold Frac.addAssign
  rw [Mut.bind_ok (Mut.get_apply _), if_pos rfl]
  have h2 : Frac.numPart (Frac.intAssign t.add 0) ⟨t.prim.lo, d⟩ = (.ok (), ⟨t.prim.lo, d⟩) := by
    simp [Frac.numPart, Mut.part_apply, Frac.intAssign, NumTy.add, NumTy.fit_inRange hlo, Mut.assign_ok]
  exact (Mut.bind_ok h2).trans key

/-- the least `i32` over minus three, plus nothing: the value is lost -/
example : Frac.addAssign ⟨.i32, .prim, .debug⟩ ⟨0, -3⟩ ⟨-2147483648, -3⟩ = (.error .panic, ⟨0, -3⟩) :=
  (C103_negative_left ⟨.i32, .prim, .debug⟩ rfl (by decide) rfl (-3) (by decide) (by decide) (by decide) (by decide)).2

/-! ### the registry of defaults -/

section patch
variable {E : Env} (A : Addr E)

theorem InPlace.writeTo_outcome {V : Type} {D : StatValue V} {I : InPlace D} (hI : I.Refines) (o : StatOp D) (v : V) :
    (I.writeTo o).outcome v = o.writeTo v := by
  cases o with
  | add x => exact hI.add v x
  | mul x => exact hI.mul v x
  | min x => exact hI.min v x
  | max x => exact hI.max v x
  | or x =>
    show Mut.outcome (fun a => Mut.assign (D.or a x) a) v = D.or v x
    cases h : D.or v x <;> simp [Mut.outcome, Mut.assign, h, Except.map]
  | not x =>
    show Mut.outcome (fun a => Mut.assign (D.not a x) a) v = D.not v x
    cases h : D.not v x <;> simp [Mut.outcome, Mut.assign, h, Except.map]
  | base x => rfl

/-- **C103** `patch` followed in place ends as in the rest of the model. -/
theorem C103_patch (s : StatInst E) (I : InPlace s.sv) (hI : I.Refines) (o : StatOp s.sv) (d : Defaults E) :
    (Defaults.patchMut A s I o).outcome d = Defaults.patch A d s o := by
  cases hg : HMap.get (StatInst.eq A) d s with
  | none =>
    simp only [Mut.outcome, Defaults.patchMut, hg]
    cases hp : Defaults.patch A d s o <;> rfl
  | some b =>
    simp only [Mut.outcome, Defaults.patchMut, Defaults.patch, hg]
    cases hb : b.read s.ty with
    | error e => rfl
    | ok v =>
      simp only [Res.bind_ok]
      have := InPlace.writeTo_outcome hI o v
      cases hw : o.writeTo v with
      | ok v' =>
        rw [hw, Mut.outcome_ok] at this
        rw [this]
        rfl
      | error e =>
        rw [hw, Mut.outcome_error] at this
        simp only [this]
        rfl

/-- **C103** If the operation is one that panics without changing the value, a `patch` that panics leaves every
registered default as it was; so do all that register bounds. -/
theorem C103_patch_atomic (s : StatInst E) (I : InPlace s.sv) (o : StatOp s.sv) (ho : (I.writeTo o).Atomic)
    (d : Defaults E) (e : Err) (h : (Defaults.patchMut A s I o d).1 = .error e) (s' : StatInst E) :
    HMap.get (StatInst.eq A) ((Defaults.patchMut A s I o).left d) s' = HMap.get (StatInst.eq A) d s' := by
  unfold Mut.left
  cases hg : HMap.get (StatInst.eq A) d s with
  | none =>
    simp only [Defaults.patchMut, hg] at h ⊢
    cases hp : Defaults.patch A d s o with
    | ok d' => rw [hp] at h; cases h
    | error e => rfl
  | some b =>
    simp only [Defaults.patchMut, hg] at h ⊢
    cases hb : b.read s.ty with
    | error e => rfl
    | ok v =>
      simp only [hb] at h ⊢
      have hbv : b = .val s.ty v := by
        simp only [Buf.read, Res.bind_eq_ok] at hb
        obtain ⟨_, _, hb⟩ := hb
        cases b with
        | op u o => cases hb
        | val u x =>
          by_cases hu : u = s.ty
          · subst hu
            simp only [Buf.get, dif_pos] at hb
            cases hb
            rfl
          · simp [Buf.get, hu] at hb
      rw [HMap.get_set (StatInst.eq_iff A)]
      by_cases hs : s = s'
      · subst hs
        rw [if_pos rfl, hg, ho v e h, hbv]
        rfl
      · rw [if_neg hs]

end patch

/-- operations that are atomic and panic: adding to the largest `i32` -/
example : ((StatInt.inPlace ⟨.i32, .prim, .debug⟩).add 1 ⟨2147483647, 0, 0, 1⟩).1 = .error .panic := by decide +kernel

/-- fractions meeting the hypotheses of `C103_fraction_mul`, one for each of its cases -/
example :
    (Frac.mulAssign ⟨.i32, .prim, .debug⟩ ⟨1073741824, 3⟩ ⟨6, 5⟩ = (.error .panic, ⟨2, 5⟩)) ∧
    (Frac.mulAssign ⟨.i32, .prim, .debug⟩ ⟨5, 65536⟩ ⟨3, 327680⟩ = (.error .panic, ⟨3, 65536⟩)) ∧
    (Frac.mulAssign ⟨.i32, .prim, .debug⟩ ⟨5, 6⟩ ⟨3, 10⟩ = (.ok (), ⟨1, 4⟩)) := by decide +kernel

/-- adding fractions that overflow -/
example : Frac.addAssign ⟨.i32, .prim, .debug⟩ ⟨1, 65537⟩ ⟨1, 65536⟩ = (.error .panic, ⟨1, 65536⟩) := by decide +kernel

end BSQ
