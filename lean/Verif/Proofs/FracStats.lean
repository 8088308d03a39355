import Verif.Proofs.FracRange
import Verif.Proofs.NumModel
import Verif.Proofs.Rounding
import Mathlib.Algebra.Group.TypeTags.Basic
/-! Helper lemmas: the fraction and percentage stats as `NumModel`s (arithmetic with overflow checks). -/
namespace BSQ
open Contrib
set_option linter.unusedSimpArgs false

theorem NumTy.kind_of_panic {t : NumTy} (h : t.ovf = .panic) : t.kind = .prim ∧ t.build = .debug := by
  revert h; unfold NumTy.ovf; cases t.kind <;> cases t.build <;> simp

theorem NumTy.primInt_of_panic {t : NumTy} (h : t.ovf = .panic) : t.primInt = t := by
  obtain ⟨hk, _⟩ := NumTy.kind_of_panic h
  cases t; simp_all [NumTy.primInt]

theorem IntTy.inRange_lo (t : IntTy) : t.InRange t.lo := ⟨le_rfl, t.lo_le_hi⟩
theorem IntTy.inRange_hi (t : IntTy) : t.InRange t.hi := ⟨t.lo_le_hi, le_rfl⟩

theorem inRange_max {t : IntTy} {a b : Int} (ha : t.InRange a) (hb : t.InRange b) : t.InRange (max a b) := by
  rcases max_choice a b with h | h <;> rw [h] <;> assumption
theorem inRange_min {t : IntTy} {a b : Int} (ha : t.InRange a) (hb : t.InRange b) : t.InRange (min a b) := by
  rcases min_choice a b with h | h <;> rw [h] <;> assumption

theorem Frac.valid_one {t : NumTy} (hb : 1 < t.prim.bits) : (⟨1, 1⟩ : Frac).Valid t :=
  Frac.valid_int hb (IntTy.inRange_one hb)
theorem Frac.valid_zero {t : NumTy} (hb : 1 < t.prim.bits) : (⟨0, 1⟩ : Frac).Valid t :=
  Frac.valid_int hb t.prim.inRange_zero

/-- `StatIntFraction` -/
def statIntFraction.model {t : NumTy} (h : t.ovf = .panic) (hb : 1 < t.prim.bits) (R : Rounding) :
    NumModel (statIntFraction t R) ℤ ℚ ℤ where
  ok := StatIntFraction.WF t
  okOp := statIntFraction.okOp
  contrib := statIntFraction.contrib
  addend v := v.addend
  mult v := v.mult.toRat
  lo v := v.min
  hi v := v.max
  lo0 := t.prim.lo
  hi0 := t.prim.hi
  dflt := ⟨⟨t.prim.inRange_zero, Frac.valid_one hb, t.prim.inRange_lo, t.prim.inRange_hi⟩, rfl,
    by simp [Frac.ops, Frac.newRaw, Frac.toRat], rfl, rfl⟩
  base b hok := ⟨⟨hok, Frac.valid_one hb, t.prim.inRange_lo, t.prim.inRange_hi⟩,
    by simp [statIntFraction.contrib, total],
    by simp [statIntFraction.contrib, product, Frac.ops, Frac.newRaw, Frac.toRat], rfl, rfl⟩
  step := by
    intro o v v' hnb hok hv e
    cases o with
    | base b => exact absurd trivial hnb
    | or b => exact b.elim
    | not b => exact b.elim
    | add a =>
      simp only [StatOp.writeTo, Res.bind_eq_ok, NumTy.add] at e
      obtain ⟨x, hx, e⟩ := e
      cases e
      refine ⟨⟨NumTy.inRange_of_fit (by omega) hx, hv.mult, hv.min, hv.max⟩, ?_⟩
      simp [((NumTy.fit_panic h).1 hx).1, statIntFraction.contrib, total, product, floorOf, capOf]
    | mul a =>
      simp only [StatOp.writeTo, Res.bind_eq_ok, NumTy.primInt_of_panic h] at e
      obtain ⟨x, hx, e⟩ := e
      cases e
      obtain ⟨k1, k2⟩ := Frac.mul_valid h hb hv.mult hok hx
      refine ⟨⟨hv.addend, k1, hv.min, hv.max⟩, ?_⟩
      simp [k2, statIntFraction.contrib, total, product, floorOf, capOf]
    | min a =>
      simp only [StatOp.writeTo] at e
      cases e
      refine ⟨⟨hv.addend, hv.mult, by rw [NumTy.max_eq]; exact inRange_max hv.min hok, hv.max⟩, ?_⟩
      simp [statIntFraction.contrib, total, product, floorOf, capOf, NumTy.max_eq, max_comm]
    | max a =>
      simp only [StatOp.writeTo] at e
      cases e
      refine ⟨⟨hv.addend, hv.mult, hv.min, by rw [NumTy.min_eq]; exact inRange_min hv.max hok⟩, ?_⟩
      simp [statIntFraction.contrib, total, product, floorOf, capOf, NumTy.min_eq, min_comm]
  join := by
    intro a b c ha hb' e
    simp only [Res.bind_eq_ok, NumTy.add, NumTy.primInt_of_panic h] at e
    obtain ⟨x, hx, m, hm, e⟩ := e
    cases e
    obtain ⟨k1, k2⟩ := Frac.mul_valid h hb ha.mult hb'.mult hm
    refine ⟨⟨NumTy.inRange_of_fit (by omega) hx, k1, ?_, ?_⟩, ((NumTy.fit_panic h).1 hx).1, k2, ?_, ?_⟩
    · rw [NumTy.max_eq]; exact inRange_max ha.min hb'.min
    · rw [NumTy.min_eq]; exact inRange_min ha.max hb'.max
    · simp [NumTy.max_eq]
    · simp [NumTy.min_eq]

theorem statIntFraction.inj {t : NumTy} (h : t.ovf = .panic) (hb : 1 < t.prim.bits) (R : Rounding) :
    (statIntFraction.model h hb R).Inj := by
  intro a b ha hb' h1 h2 h3 h4
  have := Frac.toRat_inj ha.mult.1 hb'.mult.1 h2
  cases a; cases b; simp_all [statIntFraction.model]

/-- read additive multipliers in the multiplicative form of the generic lemma -/
def Contrib.asMul {A M B : Type} : Contrib A M B → Contrib A (Multiplicative M) B
  | .add a => .add a
  | .mul m => .mul (Multiplicative.ofAdd m)
  | .atLeast b => .atLeast b
  | .atMost b => .atMost b

theorem Contrib.product_asMul {A M B : Type} [AddMonoid M] (L : List (Contrib A M B)) :
    product (L.map asMul) = Multiplicative.ofAdd (multSum L) := by
  induction L with
  | nil => rfl
  | cons c L ih => cases c <;> simp [asMul, product, multSum, ih]

theorem Contrib.total_asMul {A M B : Type} [Add A] [Zero A] (L : List (Contrib A M B)) :
    total (L.map asMul) = total L := by
  induction L with
  | nil => rfl
  | cons c L ih => cases c <;> simp [asMul, total, ih]

theorem Contrib.floorOf_asMul {A M B : Type} [Max B] (lo : B) (L : List (Contrib A M B)) :
    floorOf lo (L.map asMul) = floorOf lo L := by
  induction L with
  | nil => rfl
  | cons c L ih => cases c <;> simp [asMul, floorOf, ih]

theorem Contrib.capOf_asMul {A M B : Type} [Min B] (lo : B) (L : List (Contrib A M B)) :
    capOf lo (L.map asMul) = capOf lo L := by
  induction L with
  | nil => rfl
  | cons c L ih => cases c <;> simp [asMul, capOf, ih]

/-- operands of a `StatIntPercentAdditive` are machine integers -/
def statIntPercentAdditive.okOp {t : NumTy} {R : Rounding} {S : Int}
    (o : StatOp (statIntPercentAdditive t R S)) : Prop :=
  t.prim.InRange (statIntPercentAdditive.contrib o).num

/-- `StatIntPercentAdditive` -/
def statIntPercentAdditive.model {t : NumTy} (h : t.ovf = .panic) (hb : 1 < t.prim.bits) (R : Rounding)
    (S : Int) : NumModel (statIntPercentAdditive t R S) ℤ (Multiplicative ℤ) ℤ where
  ok := StatIntPercentAdditive.WF t
  okOp := statIntPercentAdditive.okOp
  contrib o := (statIntPercentAdditive.contrib o).asMul
  addend v := v.addend
  mult v := Multiplicative.ofAdd v.mult
  lo v := v.min
  hi v := v.max
  lo0 := t.prim.lo
  hi0 := t.prim.hi
  dflt := ⟨⟨t.prim.inRange_zero, t.prim.inRange_zero, t.prim.inRange_lo, t.prim.inRange_hi⟩, rfl,
    rfl, rfl, rfl⟩
  base b hok := ⟨⟨hok, t.prim.inRange_zero, t.prim.inRange_lo, t.prim.inRange_hi⟩,
    by simp [statIntPercentAdditive.contrib, total, asMul], rfl, rfl, rfl⟩
  step := by
    intro o v v' hnb hok hv e
    cases o with
    | base b => exact absurd trivial hnb
    | or b => exact b.elim
    | not b => exact b.elim
    | add a =>
      simp only [StatOp.writeTo, Res.bind_eq_ok, NumTy.add] at e
      obtain ⟨x, hx, e⟩ := e
      cases e
      refine ⟨⟨NumTy.inRange_of_fit (by omega) hx, hv.mult, hv.min, hv.max⟩, ?_⟩
      simp [((NumTy.fit_panic h).1 hx).1, statIntPercentAdditive.contrib, total, product, floorOf, capOf, asMul]
    | mul a =>
      simp only [StatOp.writeTo, Res.bind_eq_ok, NumTy.add] at e
      obtain ⟨x, hx, e⟩ := e
      cases e
      refine ⟨⟨hv.addend, NumTy.inRange_of_fit (by omega) hx, hv.min, hv.max⟩, ?_⟩
      simp [((NumTy.fit_panic h).1 hx).1, statIntPercentAdditive.contrib, total, product, floorOf, capOf,
        asMul, ofAdd_add]
    | min a =>
      simp only [StatOp.writeTo] at e
      cases e
      refine ⟨⟨hv.addend, hv.mult, by rw [NumTy.max_eq]; exact inRange_max hv.min hok, hv.max⟩, ?_⟩
      simp [statIntPercentAdditive.contrib, total, product, floorOf, capOf, NumTy.max_eq, max_comm, asMul]
    | max a =>
      simp only [StatOp.writeTo] at e
      cases e
      refine ⟨⟨hv.addend, hv.mult, hv.min, by rw [NumTy.min_eq]; exact inRange_min hv.max hok⟩, ?_⟩
      simp [statIntPercentAdditive.contrib, total, product, floorOf, capOf, NumTy.min_eq, min_comm, asMul]
  join := by
    intro a b c ha hb' e
    simp only [Res.bind_eq_ok, NumTy.add] at e
    obtain ⟨x, hx, m, hm, e⟩ := e
    cases e
    refine ⟨⟨NumTy.inRange_of_fit (by omega) hx, NumTy.inRange_of_fit (by omega) hm, ?_, ?_⟩,
      ((NumTy.fit_panic h).1 hx).1, ?_, ?_, ?_⟩
    · rw [NumTy.max_eq]; exact inRange_max ha.min hb'.min
    · rw [NumTy.min_eq]; exact inRange_min ha.max hb'.max
    · simp [((NumTy.fit_panic h).1 hm).1, ofAdd_add]
    · simp [NumTy.max_eq]
    · simp [NumTy.min_eq]

theorem statIntPercentAdditive.inj {t : NumTy} (h : t.ovf = .panic) (hb : 1 < t.prim.bits) (R : Rounding)
    (S : Int) : (statIntPercentAdditive.model h hb R S).Inj := by
  intro a b ha hb' h1 h2 h3 h4
  have := Multiplicative.ofAdd.injective h2
  cases a; cases b; simp_all [statIntPercentAdditive.model]

/-- `StatFloat<Fraction>` -/
def statFloat.fracModel {t : NumTy} (h : t.ovf = .panic) (hb : 1 < t.prim.bits) :
    NumModel (statFloat (Frac.ops t)) ℚ ℚ ℚ where
  ok := StatFloat.WF t
  okOp := statFloat.okOp
  contrib := statFloat.fracContrib
  addend v := v.addend.toRat
  mult v := v.mult.toRat
  lo v := v.min.toRat
  hi v := v.max.toRat
  lo0 := t.prim.lo
  hi0 := t.prim.hi
  dflt := ⟨⟨Frac.valid_zero hb, Frac.valid_one hb, Frac.valid_int hb t.prim.inRange_lo,
      Frac.valid_int hb t.prim.inRange_hi⟩, by simp [Frac.ops, Frac.newRaw, Frac.toRat],
    by simp [Frac.ops, Frac.newRaw, Frac.toRat], Frac.toRat_int _, Frac.toRat_int _⟩
  base b hok := ⟨⟨hok, Frac.valid_one hb, Frac.valid_int hb t.prim.inRange_lo,
      Frac.valid_int hb t.prim.inRange_hi⟩,
    by simp [statFloat.fracContrib, total],
    by simp [statFloat.fracContrib, product, Frac.ops, Frac.newRaw, Frac.toRat],
    Frac.toRat_int _, Frac.toRat_int _⟩
  step := by
    intro o v v' hnb hok hv e
    cases o with
    | base b => exact absurd trivial hnb
    | or b => exact b.elim
    | not b => exact b.elim
    | add a =>
      simp only [StatOp.writeTo, Res.bind_eq_ok] at e
      obtain ⟨x, hx, e⟩ := e
      cases e
      obtain ⟨k1, k2⟩ := Frac.add_valid h hb hv.addend hok hx
      refine ⟨⟨k1, hv.mult, hv.min, hv.max⟩, ?_⟩
      simp [k2, statFloat.fracContrib, total, product, floorOf, capOf]
    | mul a =>
      simp only [StatOp.writeTo, Res.bind_eq_ok] at e
      obtain ⟨x, hx, e⟩ := e
      cases e
      obtain ⟨k1, k2⟩ := Frac.mul_valid h hb hv.mult hok hx
      refine ⟨⟨hv.addend, k1, hv.min, hv.max⟩, ?_⟩
      simp [k2, statFloat.fracContrib, total, product, floorOf, capOf]
    | min a =>
      simp only [StatOp.writeTo] at e
      cases e
      obtain ⟨k1, k2⟩ := Frac.max_valid hv.min hok
      refine ⟨⟨hv.addend, hv.mult, k1, hv.max⟩, ?_⟩
      simp [statFloat.fracContrib, total, product, floorOf, capOf, Frac.ops, k2, max_comm]
    | max a =>
      simp only [StatOp.writeTo] at e
      cases e
      obtain ⟨k1, k2⟩ := Frac.min_valid hv.max hok
      refine ⟨⟨hv.addend, hv.mult, hv.min, k1⟩, ?_⟩
      simp [statFloat.fracContrib, total, product, floorOf, capOf, Frac.ops, k2, min_comm]
  join := by
    intro a b c ha hb' e
    simp only [Res.bind_eq_ok] at e
    obtain ⟨x, hx, m, hm, e⟩ := e
    cases e
    obtain ⟨k1, k2⟩ := Frac.add_valid h hb ha.addend hb'.addend hx
    obtain ⟨k3, k4⟩ := Frac.mul_valid h hb ha.mult hb'.mult hm
    obtain ⟨k5, k6⟩ := Frac.max_valid ha.min hb'.min
    obtain ⟨k7, k8⟩ := Frac.min_valid ha.max hb'.max
    exact ⟨⟨k1, k3, k5, k7⟩, k2, k4, k6, k8⟩

theorem statFloat.fracInj {t : NumTy} (h : t.ovf = .panic) (hb : 1 < t.prim.bits) :
    (statFloat.fracModel h hb).Inj := by
  intro a b ha hb' h1 h2 h3 h4
  have e1 := Frac.toRat_inj ha.addend.1 hb'.addend.1 h1
  have e2 := Frac.toRat_inj ha.mult.1 hb'.mult.1 h2
  have e3 := Frac.toRat_inj ha.min.1 hb'.min.1 h3
  have e4 := Frac.toRat_inj ha.max.1 hb'.max.1 h4
  cases a; cases b; simp_all

/-- `StatFloatAdditive<Fraction>` -/
def statFloatAdditive.fracModel {t : NumTy} (h : t.ovf = .panic) (hb : 1 < t.prim.bits) :
    NumModel (statFloatAdditive (Frac.ops t)) ℚ (Multiplicative ℚ) ℚ where
  ok := StatFloatAdditive.WF t
  okOp := statFloatAdditive.okOp
  contrib o := (statFloatAdditive.fracContrib o).asMul
  addend v := v.addend.toRat
  mult v := Multiplicative.ofAdd v.mult.toRat
  lo v := v.min.toRat
  hi v := v.max.toRat
  lo0 := t.prim.lo
  hi0 := t.prim.hi
  dflt := ⟨⟨Frac.valid_zero hb, Frac.valid_zero hb, Frac.valid_int hb t.prim.inRange_lo,
      Frac.valid_int hb t.prim.inRange_hi⟩, by simp [Frac.ops, Frac.newRaw, Frac.toRat],
    by simp [Frac.ops, Frac.newRaw, Frac.toRat], Frac.toRat_int _, Frac.toRat_int _⟩
  base b hok := ⟨⟨hok, Frac.valid_zero hb, Frac.valid_int hb t.prim.inRange_lo,
      Frac.valid_int hb t.prim.inRange_hi⟩,
    by simp [statFloatAdditive.fracContrib, total, asMul],
    by simp [statFloatAdditive.fracContrib, product, Frac.ops, Frac.newRaw, Frac.toRat, asMul],
    Frac.toRat_int _, Frac.toRat_int _⟩
  step := by
    intro o v v' hnb hok hv e
    cases o with
    | base b => exact absurd trivial hnb
    | or b => exact b.elim
    | not b => exact b.elim
    | add a =>
      simp only [StatOp.writeTo, Res.bind_eq_ok] at e
      obtain ⟨x, hx, e⟩ := e
      cases e
      obtain ⟨k1, k2⟩ := Frac.add_valid h hb hv.addend hok hx
      refine ⟨⟨k1, hv.mult, hv.min, hv.max⟩, ?_⟩
      simp [k2, statFloatAdditive.fracContrib, total, product, floorOf, capOf, asMul]
    | mul a =>
      simp only [StatOp.writeTo, Res.bind_eq_ok] at e
      obtain ⟨x, hx, e⟩ := e
      cases e
      obtain ⟨k1, k2⟩ := Frac.add_valid h hb hv.mult hok hx
      refine ⟨⟨hv.addend, k1, hv.min, hv.max⟩, ?_⟩
      simp [k2, statFloatAdditive.fracContrib, total, product, floorOf, capOf, asMul, ofAdd_add]
    | min a =>
      simp only [StatOp.writeTo] at e
      cases e
      obtain ⟨k1, k2⟩ := Frac.max_valid hv.min hok
      refine ⟨⟨hv.addend, hv.mult, k1, hv.max⟩, ?_⟩
      simp [statFloatAdditive.fracContrib, total, product, floorOf, capOf, Frac.ops, k2, max_comm, asMul]
    | max a =>
      simp only [StatOp.writeTo] at e
      cases e
      obtain ⟨k1, k2⟩ := Frac.min_valid hv.max hok
      refine ⟨⟨hv.addend, hv.mult, hv.min, k1⟩, ?_⟩
      simp [statFloatAdditive.fracContrib, total, product, floorOf, capOf, Frac.ops, k2, min_comm, asMul]
  join := by
    intro a b c ha hb' e
    simp only [Res.bind_eq_ok] at e
    obtain ⟨x, hx, m, hm, e⟩ := e
    cases e
    obtain ⟨k1, k2⟩ := Frac.add_valid h hb ha.addend hb'.addend hx
    obtain ⟨k3, k4⟩ := Frac.add_valid h hb ha.mult hb'.mult hm
    obtain ⟨k5, k6⟩ := Frac.max_valid ha.min hb'.min
    obtain ⟨k7, k8⟩ := Frac.min_valid ha.max hb'.max
    exact ⟨⟨k1, k3, k5, k7⟩, k2, by simp [k4, ofAdd_add], k6, k8⟩

theorem statFloatAdditive.fracInj {t : NumTy} (h : t.ovf = .panic) (hb : 1 < t.prim.bits) :
    (statFloatAdditive.fracModel h hb).Inj := by
  intro a b ha hb' h1 h2 h3 h4
  have e1 := Frac.toRat_inj ha.addend.1 hb'.addend.1 h1
  have e2 := Frac.toRat_inj ha.mult.1 hb'.mult.1 (Multiplicative.ofAdd.injective h2)
  have e3 := Frac.toRat_inj ha.min.1 hb'.min.1 h3
  have e4 := Frac.toRat_inj ha.max.1 hb'.max.1 h4
  cases a; cases b; simp_all

/-- `StatMult<Fraction>`; there are no addends -/
def statMult.fracModel {t : NumTy} (h : t.ovf = .panic) (hb : 1 < t.prim.bits) :
    NumModel (statMult (Frac.ops t)) ℚ ℚ ℚ where
  ok := StatMult.WF t
  okOp := statMult.okOp
  contrib := statMult.fracContrib
  addend v := 0
  mult v := v.mult.toRat
  lo v := v.min.toRat
  hi v := v.max.toRat
  lo0 := t.prim.lo
  hi0 := t.prim.hi
  dflt := ⟨⟨Frac.valid_one hb, Frac.valid_int hb t.prim.inRange_lo,
      Frac.valid_int hb t.prim.inRange_hi⟩, rfl,
    by simp [Frac.ops, Frac.newRaw, Frac.toRat], Frac.toRat_int _, Frac.toRat_int _⟩
  base b hok := ⟨⟨hok, Frac.valid_int hb t.prim.inRange_lo, Frac.valid_int hb t.prim.inRange_hi⟩,
    rfl, by simp [statMult.fracContrib, product], Frac.toRat_int _, Frac.toRat_int _⟩
  step := by
    intro o v v' hnb hok hv e
    cases o with
    | base b => exact absurd trivial hnb
    | or b => exact b.elim
    | not b => exact b.elim
    | add a => exact a.elim
    | mul a =>
      simp only [StatOp.writeTo, Res.bind_eq_ok] at e
      obtain ⟨x, hx, e⟩ := e
      cases e
      obtain ⟨k1, k2⟩ := Frac.mul_valid h hb hv.mult hok hx
      refine ⟨⟨k1, hv.min, hv.max⟩, ?_⟩
      simp [k2, statMult.fracContrib, total, product, floorOf, capOf]
    | min a =>
      simp only [StatOp.writeTo] at e
      cases e
      obtain ⟨k1, k2⟩ := Frac.max_valid hv.min hok
      refine ⟨⟨hv.mult, k1, hv.max⟩, ?_⟩
      simp [statMult.fracContrib, total, product, floorOf, capOf, Frac.ops, k2, max_comm]
    | max a =>
      simp only [StatOp.writeTo] at e
      cases e
      obtain ⟨k1, k2⟩ := Frac.min_valid hv.max hok
      refine ⟨⟨hv.mult, hv.min, k1⟩, ?_⟩
      simp [statMult.fracContrib, total, product, floorOf, capOf, Frac.ops, k2, min_comm]
  join := by
    intro a b c ha hb' e
    simp only [Res.bind_eq_ok] at e
    obtain ⟨m, hm, e⟩ := e
    cases e
    obtain ⟨k3, k4⟩ := Frac.mul_valid h hb ha.mult hb'.mult hm
    obtain ⟨k5, k6⟩ := Frac.max_valid ha.min hb'.min
    obtain ⟨k7, k8⟩ := Frac.min_valid ha.max hb'.max
    exact ⟨⟨k3, k5, k7⟩, by simp, k4, k6, k8⟩

theorem statMult.fracInj {t : NumTy} (h : t.ovf = .panic) (hb : 1 < t.prim.bits) :
    (statMult.fracModel h hb).Inj := by
  intro a b ha hb' h1 h2 h3 h4
  have e2 := Frac.toRat_inj ha.mult.1 hb'.mult.1 h2
  have e3 := Frac.toRat_inj ha.min.1 hb'.min.1 h3
  have e4 := Frac.toRat_inj ha.max.1 hb'.max.1 h4
  cases a; cases b; simp_all

end BSQ
