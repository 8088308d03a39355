import Verif.Spec.Numeric
import Verif.Proofs.Num
import Verif.Proofs.Unordered
import Mathlib.Algebra.Order.Ring.Abs
/-! Helper lemmas for `StatInt`. -/
namespace BSQ
open Contrib
set_option linter.unusedSimpArgs false

/-- A normal form for exact integers that machine arithmetic computes with. -/
structure IntNorm (t : NumTy) where
  norm : Int → Int
  good : Int → Prop
  good_zero : good 0
  good_one : good 1
  good_add : ∀ {a b}, good a → good b → good (a + b)
  good_mul : ∀ {a b}, good a → good b → good (a * b)
  zero : norm 0 = 0
  one : norm 1 = 1
  good_of : ∀ {a}, t.prim.InRange a → good a
  good_norm : ∀ {a}, good a → good (norm a)
  fit : ∀ {x y}, good x → t.fit x = .ok y → y = norm x
  norm_norm_add : ∀ {a b}, good a → good b → norm (norm a + norm b) = norm (a + b)
  norm_norm_mul : ∀ {a b}, good a → good b → norm (norm a * norm b) = norm (a * b)
  norm_add : ∀ {a b}, good a → good b → norm (norm a + b) = norm (a + b)
  norm_mul : ∀ {a b}, good a → good b → norm (norm a * b) = norm (a * b)

/-- overflow checks: exact integers -/
def IntNorm.exact {t : NumTy} (h : t.ovf = .panic) : IntNorm t where
  norm := id
  good _ := True
  good_zero := trivial
  good_one := trivial
  good_add _ _ := trivial
  good_mul _ _ := trivial
  zero := rfl
  one := rfl
  good_of _ := trivial
  good_norm _ := trivial
  fit _ e := ((NumTy.fit_panic h).1 e).1
  norm_norm_add _ _ := rfl
  norm_norm_mul _ _ := rfl
  norm_add _ _ := rfl
  norm_mul _ _ := rfl

theorem IntTy.inRange_zero (t : IntTy) : t.InRange 0 := by
  have := IntTy.two_pow_pos (t.bits - 1)
  have := IntTy.two_pow_pos t.bits
  unfold IntTy.InRange IntTy.lo IntTy.hi; split <;> omega

/-- `1` is representable except in a one bit signed integer -/
theorem IntTy.inRange_one {t : IntTy} (h : 1 < t.bits) : t.InRange 1 := by
  obtain ⟨n, hn⟩ : ∃ n, t.bits = n + 2 := ⟨t.bits - 2, by omega⟩
  have := IntTy.two_pow_pos n
  unfold IntTy.InRange IntTy.lo IntTy.hi
  simp only [hn, show n + 2 - 1 = n + 1 from rfl, pow_succ]
  split <;> omega

/-- wrap-around -/
def IntNorm.wrapping {t : NumTy} (h : t.ovf = .wrap) (hb : 1 < t.prim.bits) : IntNorm t where
  norm := t.prim.wrap
  good _ := True
  good_zero := trivial
  good_one := trivial
  good_add _ _ := trivial
  good_mul _ _ := trivial
  zero := IntTy.wrap_of_inRange (by omega) t.prim.inRange_zero
  one := IntTy.wrap_of_inRange (by omega) (IntTy.inRange_one hb)
  good_of _ := trivial
  good_norm _ := trivial
  fit _ e := by rw [NumTy.fit_wrap h (by omega)] at e; cases e; rfl
  norm_norm_add _ _ := by simp
  norm_norm_mul _ _ := by simp
  norm_add _ _ := by simp
  norm_mul _ _ := by simp

theorem min_mul_aux {a b h : Int} (ha : 0 ≤ a) (hb : 0 ≤ b) (hh : 0 ≤ h) :
    min (min a h * b) h = min (a * b) h := by
  rcases le_total a h with h1 | h1
  · rw [min_eq_left h1]
  · rw [min_eq_right h1]
    rcases hb.eq_or_lt with h2 | h2
    · subst h2; simp
    · rw [min_eq_right (by nlinarith), min_eq_right (by nlinarith)]

/-- saturation of non-negative numbers -/
def IntNorm.saturating {t : NumTy} (h : t.ovf = .sat) (hs : t.prim.signed = false)
    (hb : 1 < t.prim.bits) : IntNorm t where
  norm x := min x t.prim.hi
  good x := 0 ≤ x
  good_zero := le_rfl
  good_one := by decide
  good_add := Int.add_nonneg
  good_mul := Int.mul_nonneg
  zero := min_eq_left (t.prim.inRange_zero).2
  one := min_eq_left (IntTy.inRange_one hb).2
  good_of {a} ha := by have := IntTy.lo_of_unsigned hs ▸ ha.1; exact this
  good_norm {a} ha := by have := (t.prim.inRange_zero).2; omega
  fit {x y} hx e := by
    rw [NumTy.fit_sat h, IntTy.lo_of_unsigned hs] at e
    have := (t.prim.inRange_zero).2
    cases e; omega
  norm_norm_add := by
    intro a b ha hb
    have := (t.prim.inRange_zero).2
    omega
  norm_norm_mul := by
    intro a b ha hb
    have h0 := (t.prim.inRange_zero).2
    rw [min_mul_aux ha (by omega) h0, mul_comm, min_mul_aux hb ha h0, mul_comm]
  norm_add := by
    intro a b ha hb
    omega
  norm_mul := by
    intro a b ha hb
    exact min_mul_aux ha hb (t.prim.inRange_zero).2

/-- the contributions of a list of operations on a `StatInt` -/
def statInt.contribs {t : NumTy} (L : List (StatOp (statInt t))) : List (Contrib Int Int Int) :=
  L.map statInt.contrib

structure StatInt.Rep {t : NumTy} (N : IntNorm t) (v : StatInt) (L : List (StatOp (statInt t))) :
    Prop where
  goodT : N.good (total (statInt.contribs L))
  goodP : N.good (product (statInt.contribs L))
  addend : v.addend = N.norm (total (statInt.contribs L))
  mult : v.mult = N.norm (product (statInt.contribs L))
  min : v.min = floorOf t.prim.lo (statInt.contribs L)
  max : v.max = capOf t.prim.hi (statInt.contribs L)

theorem IntNorm.norm_of {t : NumTy} (N : IntNorm t) {a : Int} (h : t.prim.InRange a) :
    N.norm a = a := (N.fit (N.good_of h) (NumTy.fit_inRange h)).symm

@[simp] theorem statInt.contribs_nil {t : NumTy} :
    statInt.contribs ([] : List (StatOp (statInt t))) = [] := rfl
@[simp] theorem statInt.contribs_append {t : NumTy} (L K : List (StatOp (statInt t))) :
    statInt.contribs (L ++ K) = statInt.contribs L ++ statInt.contribs K := by
  simp [statInt.contribs]
@[simp] theorem statInt.contribs_single {t : NumTy} (o : StatOp (statInt t)) :
    statInt.contribs [o] = [statInt.contrib o] := rfl

theorem StatInt.rep {t : NumTy} (N : IntNorm t) (tr : Tree (statInt t)) (v : StatInt)
    (hr : tr.NoReset) (hg : ∀ o ∈ tr.leaves, t.prim.InRange (statInt.contrib o).num)
    (h : tr.run = .ok v) :
    StatInt.Rep N v tr.leaves := by
  refine Tree.run_rep (StatInt.Rep N) (fun o => t.prim.InRange (statInt.contrib o).num)
    ?_ ?_ ?_ ?_ tr v hr hg h
  · exact ⟨N.good_zero, N.good_one, N.zero.symm, N.one.symm, rfl, rfl⟩
  · intro b hb
    have hb' : t.prim.InRange b := hb
    have hg := N.good_of hb'
    refine ⟨?_, N.good_one, ?_, N.one.symm, rfl, rfl⟩
    · simpa [statInt.contrib, total] using hg
    · simp [statInt.contrib, total, statInt, N.norm_of hb']
  · intro v L o v' hnb hok hrep h
    obtain ⟨gT, gP, hA, hM, hmin, hmax⟩ := hrep
    cases o with
    | base b => exact absurd trivial hnb
    | or b => exact b.elim
    | not b => exact b.elim
    | add a =>
      have ga : N.good a := N.good_of hok
      simp only [StatOp.writeTo, statInt, Res.bind_eq_ok] at h
      obtain ⟨x, hx, h⟩ := h
      cases h
      have := N.fit (N.good_add (hA ▸ N.good_norm gT) ga) hx
      constructor <;>
        simp_all [total_append, product_append, floorOf_append, capOf_append, statInt.contrib,
          total, product, floorOf, capOf, N.good_add, N.norm_add, le_floorOf, capOf_le]
    | mul a =>
      have ga : N.good a := N.good_of hok
      simp only [StatOp.writeTo, statInt, Res.bind_eq_ok] at h
      obtain ⟨x, hx, h⟩ := h
      cases h
      have := N.fit (N.good_mul (hM ▸ N.good_norm gP) ga) hx
      constructor <;>
        simp_all [total_append, product_append, floorOf_append, capOf_append, statInt.contrib,
          total, product, floorOf, capOf, N.good_mul, N.norm_mul, le_floorOf, capOf_le]
    | min b =>
      simp only [StatOp.writeTo, statInt] at h
      cases h
      constructor <;>
        simp_all [total_append, product_append, floorOf_append, capOf_append, statInt.contrib,
          total, product, floorOf, capOf, le_floorOf, capOf_le, NumTy.max_eq, max_floorOf]
    | max b =>
      simp only [StatOp.writeTo, statInt] at h
      cases h
      constructor <;>
        simp_all [total_append, product_append, floorOf_append, capOf_append, statInt.contrib,
          total, product, floorOf, capOf, le_floorOf, capOf_le, NumTy.min_eq, min_capOf]
  · intro a b L K v ha hb h
    obtain ⟨gT, gP, hA, hM, hmin, hmax⟩ := ha
    obtain ⟨gT', gP', hA', hM', hmin', hmax'⟩ := hb
    simp only [statInt, Res.bind_eq_ok] at h
    obtain ⟨x, hx, y, hy, h⟩ := h
    cases h
    have h1 := N.fit (N.good_add (hA ▸ N.good_norm gT) (hA' ▸ N.good_norm gT')) hx
    have h2 := N.fit (N.good_mul (hM ▸ N.good_norm gP) (hM' ▸ N.good_norm gP')) hy
    constructor <;>
      simp_all [total_append, product_append, floorOf_append, capOf_append, N.good_add, N.good_mul,
        N.norm_norm_add, N.norm_norm_mul, NumTy.min_eq, NumTy.max_eq]

end BSQ

namespace BSQ
open Contrib
set_option linter.unusedSimpArgs false

theorem StatInt.unordered {t : NumTy} (N : IntNorm t) :
    Unordered (statInt t) (fun o => t.prim.InRange (statInt.contrib o).num) := by
  intro s u v w hs hu hok hp hv hw
  have h1 := StatInt.rep N s v hs hok hv
  have h2 := StatInt.rep N u w hu (fun o ho => hok o (hp.mem_iff.2 ho)) hw
  have hp' : (statInt.contribs s.leaves).Perm (statInt.contribs u.leaves) := hp.map _
  obtain ⟨_, _, a1, a2, a3, a4⟩ := h1
  obtain ⟨_, _, b1, b2, b3, b4⟩ := h2
  rw [total_perm hp'] at a1
  rw [product_perm hp'] at a2
  rw [floorOf_perm _ hp'] at a3
  rw [capOf_perm _ hp'] at a4
  cases v; cases w
  simp_all

theorem absTotal_nonneg (L : List (Contrib Int Int Int)) : 0 ≤ absTotal L := by
  induction L with
  | nil => simp [absTotal]
  | cons c L ih => cases c <;> simp only [absTotal] <;> omega

theorem absProduct_pos (L : List (Contrib Int Int Int)) : 1 ≤ absProduct L := by
  induction L with
  | nil => simp [absProduct]
  | cons c L ih =>
    cases c <;> simp only [absProduct]
    all_goals try exact ih
    nlinarith [le_max_left (1 : Int) (Int.natAbs ‹Int› : Int)]

theorem absTotal_append (L K : List (Contrib Int Int Int)) :
    absTotal (L ++ K) = absTotal L + absTotal K := by
  induction L with
  | nil => simp [absTotal]
  | cons c L ih => cases c <;> simp [absTotal, ih, add_assoc]

theorem absProduct_append (L K : List (Contrib Int Int Int)) :
    absProduct (L ++ K) = absProduct L * absProduct K := by
  induction L with
  | nil => simp [absProduct]
  | cons c L ih => cases c <;> simp [absProduct, ih, mul_assoc]

theorem abs_total_le (L : List (Contrib Int Int Int)) : |total L| ≤ absTotal L := by
  induction L with
  | nil => simp [total, absTotal]
  | cons c L ih =>
    cases c <;> simp only [total, absTotal]
    all_goals try exact ih
    rw [abs_le] at *; omega

theorem abs_product_le (L : List (Contrib Int Int Int)) : |product L| ≤ absProduct L := by
  induction L with
  | nil => simp [product, absProduct]
  | cons c L ih =>
    cases c <;> simp only [product, absProduct]
    all_goals try exact ih
    rename_i m
    rw [abs_mul]
    have h1 : |m| ≤ max 1 (m.natAbs : Int) := by rw [Int.abs_eq_natAbs]; exact le_max_right _ _
    exact mul_le_mul h1 ih (abs_nonneg _) (by positivity)

theorem IntTy.inRange_of_abs {t : IntTy} {x : Int} (h : |x| ≤ t.hi) (hs : t.signed = false → 0 ≤ x) :
    t.InRange x := by
  rw [abs_le] at h
  refine ⟨?_, h.2⟩
  unfold IntTy.hi at h
  unfold IntTy.lo
  cases hsg : t.signed <;> simp_all
  omega

/-- the range hypothesis on operands gives non-negative contributions for unsigned types -/
theorem nonneg_total {t : NumTy} (hs : t.prim.signed = false) (L : List (Contrib Int Int Int))
    (h : ∀ c ∈ L, t.prim.InRange c.num) : 0 ≤ total L := by
  induction L with
  | nil => simp [total]
  | cons c L ih =>
    have h1 := ih (fun c hc => h c (by simp [hc]))
    have h2 := h c (by simp)
    have h3 : 0 ≤ c.num := by have := h2.1; rwa [IntTy.lo_of_unsigned hs] at this
    cases c <;> simp only [total] <;> try exact h1
    simp only [Contrib.num] at h3; omega

theorem nonneg_product {t : NumTy} (hs : t.prim.signed = false) (L : List (Contrib Int Int Int))
    (h : ∀ c ∈ L, t.prim.InRange c.num) : 0 ≤ product L := by
  induction L with
  | nil => simp [product]
  | cons c L ih =>
    have h1 := ih (fun c hc => h c (by simp [hc]))
    have h2 := h c (by simp)
    have h3 : 0 ≤ c.num := by have := h2.1; rwa [IntTy.lo_of_unsigned hs] at this
    cases c <;> simp only [product] <;> try exact h1
    simp only [Contrib.num] at h3; exact Int.mul_nonneg h3 h1

theorem total_inRange {t : NumTy} (L : List (Contrib Int Int Int))
    (h : ∀ c ∈ L, t.prim.InRange c.num) (hT : absTotal L ≤ t.prim.hi) : t.prim.InRange (total L) :=
  IntTy.inRange_of_abs ((abs_total_le L).trans hT) (fun hs => nonneg_total hs L h)

theorem product_inRange {t : NumTy} (L : List (Contrib Int Int Int))
    (h : ∀ c ∈ L, t.prim.InRange c.num) (hT : absProduct L ≤ t.prim.hi) :
    t.prim.InRange (product L) :=
  IntTy.inRange_of_abs ((abs_product_le L).trans hT) (fun hs => nonneg_product hs L h)

theorem contribs_inRange {t : NumTy} {L : List (StatOp (statInt t))}
    (h : ∀ o ∈ L, t.prim.InRange (statInt.contrib o).num) :
    ∀ c ∈ statInt.contribs L, t.prim.InRange c.num := by
  intro c hc
  simp only [statInt.contribs, List.mem_map] at hc
  obtain ⟨o, ho, rfl⟩ := hc
  exact h o ho

/-- If the magnitudes fit, no order of assembly overflows. -/
theorem StatInt.run_ok {t : NumTy} (h : t.ovf = .panic) :
    ∀ (tr : Tree (statInt t)), tr.NoReset →
      (∀ o ∈ tr.leaves, t.prim.InRange (statInt.contrib o).num) →
      absTotal (statInt.contribs tr.leaves) ≤ t.prim.hi →
      absProduct (statInt.contribs tr.leaves) ≤ t.prim.hi → ∃ v, tr.run = .ok v
  | .dflt, _, _, _, _ => ⟨_, rfl⟩
  | .base b, _, _, _, _ => ⟨_, rfl⟩
  | .op tr o, hn, hok, hT, hP => by
    have hall := contribs_inRange hok
    simp only [Tree.leaves, statInt.contribs_append, absTotal_append, absProduct_append] at hT hP hall
    have hnn := absTotal_nonneg (statInt.contribs [o])
    have hpp := absProduct_pos (statInt.contribs [o])
    have hqq := absProduct_pos (statInt.contribs tr.leaves)
    have hok' : ∀ o ∈ tr.leaves, t.prim.InRange (statInt.contrib o).num :=
      fun o ho => hok o (by simp [Tree.leaves, ho])
    obtain ⟨w, hw⟩ := StatInt.run_ok h tr hn.1 hok' (by omega) (by nlinarith)
    have rep := StatInt.rep (IntNorm.exact h) tr w hn.1 hok' hw
    have a1 : w.addend = total (statInt.contribs tr.leaves) := rep.addend
    have a2 : w.mult = product (statInt.contribs tr.leaves) := rep.mult
    have hTr := total_inRange (t := t) (statInt.contribs tr.leaves ++ statInt.contribs [o]) hall
      (by rw [absTotal_append]; exact hT)
    have hPr := product_inRange (t := t) (statInt.contribs tr.leaves ++ statInt.contribs [o]) hall
      (by rw [absProduct_append]; exact hP)
    simp only [Tree.run, hw, Res.bind_ok]
    cases o with
    | base b => exact absurd trivial hn.2
    | or b => exact b.elim
    | not b => exact b.elim
    | add a =>
      simp only [statInt.contribs_single, statInt.contrib, total_append, total, add_zero] at hTr
      simp only [StatOp.writeTo, NumTy.add, a1, NumTy.fit_inRange hTr]
      exact ⟨_, rfl⟩
    | mul a =>
      simp only [statInt.contribs_single, statInt.contrib, product_append, product, mul_one] at hPr
      simp only [StatOp.writeTo, NumTy.mul, a2, NumTy.fit_inRange hPr]
      exact ⟨_, rfl⟩
    | min b => exact ⟨_, rfl⟩
    | max b => exact ⟨_, rfl⟩
  | .join l r, hn, hok, hT, hP => by
    have hall := contribs_inRange hok
    simp only [Tree.leaves, statInt.contribs_append, absTotal_append, absProduct_append] at hT hP hall
    have h1 := absTotal_nonneg (statInt.contribs l.leaves)
    have h2 := absTotal_nonneg (statInt.contribs r.leaves)
    have h3 := absProduct_pos (statInt.contribs l.leaves)
    have h4 := absProduct_pos (statInt.contribs r.leaves)
    have hokl : ∀ o ∈ l.leaves, t.prim.InRange (statInt.contrib o).num :=
      fun o ho => hok o (by simp [Tree.leaves, ho])
    have hokr : ∀ o ∈ r.leaves, t.prim.InRange (statInt.contrib o).num :=
      fun o ho => hok o (by simp [Tree.leaves, ho])
    obtain ⟨a, ha⟩ := StatInt.run_ok h l hn.1 hokl (by omega) (by nlinarith)
    obtain ⟨b, hb⟩ := StatInt.run_ok h r hn.2 hokr (by omega) (by nlinarith)
    have ra := StatInt.rep (IntNorm.exact h) l a hn.1 hokl ha
    have rb := StatInt.rep (IntNorm.exact h) r b hn.2 hokr hb
    have a1 : a.addend = total (statInt.contribs l.leaves) := ra.addend
    have a2 : a.mult = product (statInt.contribs l.leaves) := ra.mult
    have b1 : b.addend = total (statInt.contribs r.leaves) := rb.addend
    have b2 : b.mult = product (statInt.contribs r.leaves) := rb.mult
    have hTr := total_inRange (t := t) (statInt.contribs l.leaves ++ statInt.contribs r.leaves) hall
      (by rw [absTotal_append]; exact hT)
    have hPr := product_inRange (t := t) (statInt.contribs l.leaves ++ statInt.contribs r.leaves) hall
      (by rw [absProduct_append]; exact hP)
    rw [total_append] at hTr
    rw [product_append] at hPr
    simp only [Tree.run, ha, hb, Res.bind_ok, NumTy.add, NumTy.mul, a1, a2, b1, b2,
      NumTy.fit_inRange hTr, NumTy.fit_inRange hPr]
    exact ⟨_, rfl⟩

theorem StatInt.run_total {t : NumTy} (h : t.ovf ≠ .panic) :
    ∀ (tr : Tree (statInt t)), ∃ v, tr.run = .ok v
  | .dflt => ⟨_, rfl⟩
  | .base b => ⟨_, rfl⟩
  | .op tr o => by
    obtain ⟨v, hv⟩ := StatInt.run_total h tr
    simp only [Tree.run, hv, Res.bind_ok]
    cases o with
    | base b => exact ⟨_, rfl⟩
    | or b => exact b.elim
    | not b => exact b.elim
    | add a =>
      obtain ⟨y, hy⟩ := NumTy.fit_ne_panic h (v.addend + a)
      simp only [StatOp.writeTo, NumTy.add, hy]; exact ⟨_, rfl⟩
    | mul a =>
      obtain ⟨y, hy⟩ := NumTy.fit_ne_panic h (v.mult * a)
      simp only [StatOp.writeTo, NumTy.mul, hy]; exact ⟨_, rfl⟩
    | min b => exact ⟨_, rfl⟩
    | max b => exact ⟨_, rfl⟩
  | .join l r => by
    obtain ⟨a, ha⟩ := StatInt.run_total h l
    obtain ⟨b, hb⟩ := StatInt.run_total h r
    obtain ⟨x, hx⟩ := NumTy.fit_ne_panic h (a.addend + b.addend)
    obtain ⟨y, hy⟩ := NumTy.fit_ne_panic h (a.mult * b.mult)
    simp only [Tree.run, ha, hb, Res.bind_ok, NumTy.add, NumTy.mul, hx, hy]
    exact ⟨_, rfl⟩

end BSQ
