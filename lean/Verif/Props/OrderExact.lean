import Verif.Spec.OrderExact
import Verif.Props.StatInt
/-!
# C32 for integers with overflow checks, exactly
-/
namespace BSQ
open Contrib
variable {t : NumTy}

local notation "C" => statInt.contribs

theorem StatInt.op_returns (h : t.ovf = .panic) {v : StatInt} {L : List (StatOp (statInt t))}
    (hv : StatInt.Rep (IntNorm.exact h) v L) (o : StatOp (statInt t)) (hT : t.prim.InRange (total (C (L ++ [o]))))
    (hP : t.prim.InRange (product (C (L ++ [o])))) : ∃ v', o.writeTo v = .ok v' := by
  have hA : v.addend = total (C L) := hv.addend
  have hM : v.mult = product (C L) := hv.mult
  simp only [statInt.contribs_append, total_append, product_append, statInt.contribs_single] at hT hP
  cases o with
  | add a =>
    have : t.prim.InRange (v.addend + a) := by rw [hA]; simpa [statInt.contrib, total] using hT
    exact ⟨{ v with addend := v.addend + a }, by
      simp only [StatOp.writeTo, NumTy.add, NumTy.fit_inRange this, Res.bind_ok]⟩
  | mul a =>
    have : t.prim.InRange (v.mult * a) := by rw [hM]; simpa [statInt.contrib, product] using hP
    exact ⟨{ v with mult := v.mult * a }, by
      simp only [StatOp.writeTo, NumTy.mul, NumTy.fit_inRange this, Res.bind_ok]⟩
  | min b => exact ⟨_, rfl⟩
  | max b => exact ⟨_, rfl⟩
  | base b => exact ⟨_, rfl⟩
  | or b => exact b.elim
  | not b => exact b.elim

theorem StatInt.join_returns (h : t.ovf = .panic) {v w : StatInt} {L K : List (StatOp (statInt t))}
    (hv : StatInt.Rep (IntNorm.exact h) v L) (hw : StatInt.Rep (IntNorm.exact h) w K)
    (hT : t.prim.InRange (total (C (L ++ K)))) (hP : t.prim.InRange (product (C (L ++ K)))) :
    ∃ x, (statInt t).join v w = .ok x := by
  have hA : v.addend = total (C L) := hv.addend
  have hM : v.mult = product (C L) := hv.mult
  have hA' : w.addend = total (C K) := hw.addend
  have hM' : w.mult = product (C K) := hw.mult
  simp only [statInt.contribs_append, total_append, product_append] at hT hP
  rw [← hA, ← hA'] at hT
  rw [← hM, ← hM'] at hP
  exact ⟨⟨v.addend + w.addend, t.max v.min w.min, t.min v.max w.max, v.mult * w.mult⟩, by
    simp only [NumTy.add, NumTy.mul, NumTy.fit_inRange hT, NumTy.fit_inRange hP, Res.bind_ok]⟩

theorem StatInt.run_inRange (h : t.ovf = .panic) (hb : 1 < t.prim.bits) (tr : Tree (statInt t)) (v : StatInt)
    (hr : tr.NoReset) (hok : ∀ o ∈ tr.leaves, t.prim.InRange (statInt.contrib o).num) (hv : tr.run = .ok v) :
    t.prim.InRange (total (C tr.leaves)) ∧ t.prim.InRange (product (C tr.leaves)) := by
  have rep := StatInt.rep (IntNorm.exact h) tr v hr hok hv
  have h1 : v.addend = total (C tr.leaves) := rep.addend
  have h2 : v.mult = product (C tr.leaves) := rep.mult
  rw [← h1, ← h2]
  clear h1 h2 rep
  induction tr generalizing v with
  | dflt => cases hv; exact ⟨t.prim.inRange_zero, IntTy.inRange_one hb⟩
  | base b => cases hv; exact ⟨hok _ List.mem_cons_self, IntTy.inRange_one hb⟩
  | op tr o ih =>
    obtain ⟨w, hw, h3⟩ := Res.bind_eq_ok.1 hv
    obtain ⟨i1, i2⟩ := ih w hr.1 (fun o ho => hok o (by simp [Tree.leaves, ho])) hw
    cases o with
    | add a =>
      simp only [StatOp.writeTo, Res.bind_eq_ok, NumTy.add, NumTy.fit_panic h] at h3
      obtain ⟨x, ⟨rfl, hx⟩, h3⟩ := h3
      cases h3
      exact ⟨hx, i2⟩
    | mul a =>
      simp only [StatOp.writeTo, Res.bind_eq_ok, NumTy.mul, NumTy.fit_panic h] at h3
      obtain ⟨x, ⟨rfl, hx⟩, h3⟩ := h3
      cases h3
      exact ⟨i1, hx⟩
    | min b => cases h3; exact ⟨i1, i2⟩
    | max b => cases h3; exact ⟨i1, i2⟩
    | base b => exact absurd trivial hr.2
    | or b => exact b.elim
    | not b => exact b.elim
  | join l r _ _ =>
    obtain ⟨a, ha, h3⟩ := Res.bind_eq_ok.1 hv
    obtain ⟨b, hb', h3⟩ := Res.bind_eq_ok.1 h3
    simp only [Res.bind_eq_ok, NumTy.add, NumTy.mul, NumTy.fit_panic h] at h3
    obtain ⟨x, ⟨rfl, hx⟩, y, ⟨rfl, hy⟩, h3⟩ := h3
    cases h3
    exact ⟨hx, hy⟩

theorem SelectionsFit.subperm {os L : List (StatOp (statInt t))} (h : SelectionsFit t os) (hL : L.Subperm os) :
    t.prim.InRange (total (C L)) ∧ t.prim.InRange (product (C L)) := by
  obtain ⟨S, h1, h2⟩ := hL
  have := h S h2
  have hp : (C S).Perm (C L) := h1.map _
  rw [← total_perm hp, ← product_perm hp]
  exact this

theorem SelectionsFit.returns (h : t.ovf = .panic) {os : List (StatOp (statInt t))} (hs : SelectionsFit t os)
    (hok : ∀ o ∈ os, t.prim.InRange (statInt.contrib o).num) (tr : Tree (statInt t)) (hr : tr.NoReset)
    (hL : tr.leaves.Subperm os) : ∃ v, tr.run = .ok v := by
  induction tr with
  | dflt => exact ⟨_, rfl⟩
  | base b => exact ⟨_, rfl⟩
  | op tr o ih =>
    obtain ⟨v, hv⟩ := ih hr.1 ((List.sublist_append_left _ _).subperm.trans hL)
    have rep := StatInt.rep (IntNorm.exact h) tr v hr.1
      (fun o ho => hok o (hL.subset (by simp [Tree.leaves, ho]))) hv
    obtain ⟨v', hv'⟩ := StatInt.op_returns h rep o (hs.subperm hL).1 (hs.subperm hL).2
    exact ⟨v', by rw [Tree.run, hv, Res.bind_ok, hv']⟩
  | join l r ihl ihr =>
    obtain ⟨v, hv⟩ := ihl hr.1 ((List.sublist_append_left _ _).subperm.trans hL)
    obtain ⟨w, hw⟩ := ihr hr.2 ((List.sublist_append_right _ _).subperm.trans hL)
    have rep := StatInt.rep (IntNorm.exact h) l v hr.1
      (fun o ho => hok o (hL.subset (by simp [Tree.leaves, ho]))) hv
    have rep' := StatInt.rep (IntNorm.exact h) r w hr.2
      (fun o ho => hok o (hL.subset (by simp [Tree.leaves, ho]))) hw
    obtain ⟨x, hx⟩ := StatInt.join_returns h rep rep' (hs.subperm hL).1 (hs.subperm hL).2
    exact ⟨x, by rw [Tree.run, hv, Res.bind_ok, hw, Res.bind_ok, hx]⟩

/-- one operation alone -/
def Tree.leaf {V : Type} {D : StatValue V} : StatOp D → Tree D
  | .base b => .base b
  | o => .op .dflt o

theorem Tree.leaf_leaves {V : Type} {D : StatValue V} (o : StatOp D) : (Tree.leaf o).leaves = [o] := by
  cases o <;> rfl

theorem Tree.leaf_noReset {V : Type} {D : StatValue V} (o : StatOp D) : (Tree.leaf o).NoReset := by
  cases o <;> simp [Tree.leaf, Tree.NoReset, StatOp.IsBase]

/-- some operations, joined one by one -/
def Tree.joined {V : Type} {D : StatValue V} : List (StatOp D) → Tree D
  | [] => .dflt
  | o :: l => .join (.leaf o) (joined l)

theorem Tree.joined_leaves {V : Type} {D : StatValue V} (l : List (StatOp D)) : (Tree.joined l).leaves = l := by
  induction l with
  | nil => rfl
  | cons o l ih => simp [Tree.joined, Tree.leaves, Tree.leaf_leaves, ih]

theorem Tree.joined_noReset {V : Type} {D : StatValue V} (l : List (StatOp D)) : (Tree.joined l).NoReset := by
  induction l with
  | nil => trivial
  | cons o l ih => exact ⟨Tree.leaf_noReset o, ih⟩

/-- **C32, exactly**, for integers with overflow checks: no order and grouping of the operations panics while the
value is assembled, if and only if every selection of them adds up and multiplies out within the type. -/
theorem C32_every_order_iff (h : t.ovf = .panic) (hb : 1 < t.prim.bits) (os : List (StatOp (statInt t)))
    (hok : ∀ o ∈ os, t.prim.InRange (statInt.contrib o).num) :
    (∀ tr, AssemblyOf os tr → ∃ v, tr.run = .ok v) ↔ SelectionsFit t os := by
  constructor
  · intro hall S hS
    obtain ⟨R, hR⟩ := hS.exists_perm_append
    obtain ⟨v, hv⟩ := hall (.join (.joined S) (.joined R))
      ⟨⟨Tree.joined_noReset S, Tree.joined_noReset R⟩, by
        simp only [Tree.leaves, Tree.joined_leaves]; exact hR.symm⟩
    obtain ⟨w, hw, -⟩ := Res.bind_eq_ok.1 hv
    have := StatInt.run_inRange h hb (.joined S) w (Tree.joined_noReset S)
      (fun o ho => hok o (hS.subset (by rwa [Tree.joined_leaves] at ho))) hw
    rwa [Tree.joined_leaves] at this
  · intro hs tr htr
    exact hs.returns h hok tr htr.noReset htr.leaves.subperm

/-! ### some order -/

theorem list_sum_nonpos {l : List Int} (h : ∀ a ∈ l, ¬ 0 < a) : l.sum ≤ 0 := by
  induction l with
  | nil => simp
  | cons a l ih =>
    have h1 := h a List.mem_cons_self
    have h2 := ih fun b hb => h b (List.mem_cons_of_mem _ hb)
    simp only [List.sum_cons]
    omega

theorem list_sum_nonneg {l : List Int} (h : ∀ a ∈ l, ¬ a < 0) : 0 ≤ l.sum := by
  induction l with
  | nil => simp
  | cons a l ih =>
    have h1 := h a List.mem_cons_self
    have h2 := ih fun b hb => h b (List.mem_cons_of_mem _ hb)
    simp only [List.sum_cons]
    omega

/-- some addend can be the last one -/
theorem last_addend (p : IntTy) (l : List Int) (hl : l ≠ []) (hr : ∀ a ∈ l, p.InRange a) (hs : p.InRange l.sum) :
    ∃ a r, l.Perm (a :: r) ∧ p.InRange r.sum := by
  have h0 := p.inRange_zero
  suffices key : ∃ a ∈ l, p.InRange (l.sum - a) by
    obtain ⟨a, ha, h⟩ := key
    obtain ⟨r, hp⟩ : ∃ r, l.Perm (a :: r) := ⟨_, List.perm_cons_erase ha⟩
    refine ⟨a, r, hp, ?_⟩
    have := hp.sum_eq
    simp only [List.sum_cons] at this
    rwa [show r.sum = l.sum - a by omega]
  have hlohi : p.signed = true → p.lo = -p.hi - 1 := by
    intro hp
    simp [IntTy.lo, IntTy.hi, hp]
  have hun : p.signed = false → p.lo = 0 := by
    intro hp
    simp [IntTy.lo, hp]
  unfold IntTy.InRange at *
  by_cases hS : 0 ≤ l.sum
  · by_cases hpos : ∃ a ∈ l, 0 < a
    · obtain ⟨a, ha, hp⟩ := hpos
      refine ⟨a, ha, ?_, by omega⟩
      have h1 := hr a ha
      cases hp : p.signed with
      | true => have := hlohi hp; omega
      | false =>
        rw [hun hp]
        obtain ⟨r, hp'⟩ : ∃ r, l.Perm (a :: r) := ⟨_, List.perm_cons_erase ha⟩
        have h2 := hp'.sum_eq
        simp only [List.sum_cons] at h2
        have h3 : 0 ≤ r.sum := list_sum_nonneg fun b hb => by
          have := (hr b (hp'.mem_iff.2 (List.mem_cons_of_mem _ hb))).1
          rw [hun hp] at this
          omega
        omega
    · push Not at hpos
      obtain ⟨a, ha⟩ := List.exists_mem_of_ne_nil l hl
      refine ⟨a, ha, ?_⟩
      have h1 := hpos a ha
      have hz := list_sum_nonpos (l := l) fun b hb => by have := hpos b hb; omega
      have h2 := hr a ha
      have h3 : a = 0 := by
        by_contra hne
        obtain ⟨r, hp'⟩ : ∃ r, l.Perm (a :: r) := ⟨_, List.perm_cons_erase ha⟩
        have h2 := hp'.sum_eq
        simp only [List.sum_cons] at h2
        have h4 : r.sum ≤ 0 := list_sum_nonpos fun b hb => by
          have := hpos b (hp'.mem_iff.2 (List.mem_cons_of_mem _ hb)); omega
        omega
      subst h3
      omega
  · by_cases hneg : ∃ a ∈ l, a < 0
    · obtain ⟨a, ha, hp⟩ := hneg
      refine ⟨a, ha, by omega, ?_⟩
      have h1 := hr a ha
      cases hp : p.signed with
      | true => have := hlohi hp; omega
      | false => have := hun hp; omega
    · push Not at hneg
      have := list_sum_nonneg (l := l) fun b hb => by have := hneg b hb; omega
      omega

/-- some multiplier can be the last one -/
theorem last_mult (p : IntTy) (hb : 1 < p.bits) (l : List Int) (hl : l ≠ []) (hr : ∀ a ∈ l, p.InRange a)
    (hs : p.InRange l.prod) : ∃ a r, l.Perm (a :: r) ∧ p.InRange r.prod := by
  have h0 := p.inRange_zero
  have h1 := IntTy.inRange_one hb
  by_cases hz : (0 : Int) ∈ l
  · obtain ⟨r, hp⟩ : ∃ r, l.Perm (0 :: r) := ⟨_, List.perm_cons_erase hz⟩
    cases r with
    | nil => exact ⟨0, [], hp, by simpa using h1⟩
    | cons b r => exact ⟨b, 0 :: r, hp.trans (List.Perm.swap _ _ _), by simpa using h0⟩
  · have hlohi : p.signed = true → p.lo = -p.hi - 1 := by
      intro hp
      simp [IntTy.lo, IntTy.hi, hp]
    have hun : p.signed = false → p.lo = 0 := by
      intro hp
      simp [IntTy.lo, hp]
    have hnn : p.signed = false → ∀ r : List Int, (∀ b ∈ r, b ∈ l) → 0 ≤ r.prod := by
      intro hp r hr'
      induction r with
      | nil => simp
      | cons b r ih =>
        rw [List.prod_cons]
        have h2 := (hr b (hr' b List.mem_cons_self)).1
        rw [hun hp] at h2
        exact Int.mul_nonneg h2 (ih fun c hc => hr' c (List.mem_cons_of_mem _ hc))
    by_cases hbig : ∃ a ∈ l, 2 ≤ |a|
    · obtain ⟨a, ha, h2⟩ := hbig
      obtain ⟨r, hp⟩ : ∃ r, l.Perm (a :: r) := ⟨_, List.perm_cons_erase ha⟩
      refine ⟨a, r, hp, ?_⟩
      have h3 := hp.prod_eq
      simp only [List.prod_cons] at h3
      have h4 : |l.prod| = |a| * |r.prod| := by rw [h3, abs_mul]
      have h5 : 2 * |r.prod| ≤ |l.prod| := by
        rw [h4]; exact mul_le_mul_of_nonneg_right h2 (abs_nonneg _)
      unfold IntTy.InRange at *
      cases hsg : p.signed with
      | true =>
        have := hlohi hsg
        have h6 : |l.prod| ≤ p.hi + 1 := abs_le.2 ⟨by omega, by omega⟩
        have h7 : |r.prod| ≤ p.hi := by omega
        have := abs_le.1 h7
        constructor <;> omega
      | false =>
        have h6 := hnn hsg r fun b hb => hp.mem_iff.2 (List.mem_cons_of_mem _ hb)
        have h7 := hnn hsg l fun b hb => hb
        rw [abs_of_nonneg h6, abs_of_nonneg h7] at h5
        have := hun hsg
        constructor <;> omega
    · push Not at hbig
      have hunit : ∀ a ∈ l, a = 1 ∨ a = -1 := by
        intro a ha
        have h2 := hbig a ha
        have h3 : a ≠ 0 := fun h => hz (h ▸ ha)
        rw [abs_lt] at h2
        omega
      obtain ⟨a, ha⟩ := List.exists_mem_of_ne_nil l hl
      obtain ⟨r, hp⟩ : ∃ r, l.Perm (a :: r) := ⟨_, List.perm_cons_erase ha⟩
      refine ⟨a, r, hp, ?_⟩
      have hru : r.prod = 1 ∨ r.prod = -1 := by
        have : ∀ r : List Int, (∀ b ∈ r, b = 1 ∨ b = -1) → r.prod = 1 ∨ r.prod = -1 := by
          intro r hr
          induction r with
          | nil => simp
          | cons b r ih =>
            rw [List.prod_cons]
            rcases hr b List.mem_cons_self with rfl | rfl <;>
              rcases ih fun c hc => hr c (List.mem_cons_of_mem _ hc) with h | h <;> simp [h]
        exact this r fun b hb => hunit b (hp.mem_iff.2 (List.mem_cons_of_mem _ hb))
      unfold IntTy.InRange at *
      cases hsg : p.signed with
      | true => have := hlohi hsg; rcases hru with h | h <;> rw [h] <;> constructor <;> omega
      | false =>
        have h6 := hnn hsg r fun b hb => hp.mem_iff.2 (List.mem_cons_of_mem _ hb)
        rcases hru with h | h <;> rw [h] at h6 ⊢ <;> constructor <;> omega

/-- the addends and multipliers, as lists -/
theorem total_eq_sum (l : List (Contrib Int Int Int)) :
    total l = (l.filterMap fun c => match c with | .add a => some a | _ => none).sum := by
  induction l with
  | nil => rfl
  | cons c l ih => cases c <;> simp [total, ih]

theorem product_eq_prod (l : List (Contrib Int Int Int)) :
    product l = (l.filterMap fun c => match c with | .mul a => some a | _ => none).prod := by
  induction l with
  | nil => rfl
  | cons c l ih => cases c <;> simp [product, ih]

/-- picking an element of a filtered list picks one of the list -/
theorem perm_of_filterMap {α β : Type} {f : α → Option β} {l : List α} {b : β} {r : List β}
    (h : (l.filterMap f).Perm (b :: r)) : ∃ a m, f a = some b ∧ l.Perm (a :: m) ∧ (m.filterMap f).Perm r := by
  obtain ⟨a, ha, hab⟩ := List.mem_filterMap.1 (h.mem_iff.2 List.mem_cons_self)
  obtain ⟨s, u, rfl⟩ := List.append_of_mem ha
  refine ⟨a, s ++ u, hab, List.perm_middle, ?_⟩
  have h1 : ((s ++ a :: u).filterMap f).Perm (b :: (s ++ u).filterMap f) := by
    simp only [List.filterMap_append, List.filterMap_cons, hab]
    exact List.perm_middle
  exact (List.perm_cons b).1 (h1.symm.trans h)

/-- some operation can be the last one -/
theorem last_op (hb : 1 < t.prim.bits) (os : List (StatOp (statInt t))) (hne : os ≠ [])
    (hok : ∀ o ∈ os, t.prim.InRange (statInt.contrib o).num) (hT : t.prim.InRange (total (C os)))
    (hP : t.prim.InRange (product (C os))) :
    ∃ o l, os.Perm (o :: l) ∧ t.prim.InRange (total (C l)) ∧ t.prim.InRange (product (C l)) := by
  let fa : StatOp (statInt t) → Option Int := fun o => match statInt.contrib o with | .add a => some a | _ => none
  let fm : StatOp (statInt t) → Option Int := fun o => match statInt.contrib o with | .mul a => some a | _ => none
  have ea : ∀ l : List (StatOp (statInt t)), total (C l) = (l.filterMap fa).sum := by
    intro l
    rw [total_eq_sum, statInt.contribs, List.filterMap_map]
    rfl
  have em : ∀ l : List (StatOp (statInt t)), product (C l) = (l.filterMap fm).prod := by
    intro l
    rw [product_eq_prod, statInt.contribs, List.filterMap_map]
    rfl
  have hfa : ∀ o a, fa o = some a → statInt.contrib o = .add a := by
    intro o a h
    simp only [fa] at h
    split at h <;> simp_all
  have hfm : ∀ o a, fm o = some a → statInt.contrib o = .mul a := by
    intro o a h
    simp only [fm] at h
    split at h <;> simp_all
  by_cases hA : os.filterMap fa = []
  · by_cases hM : os.filterMap fm = []
    · obtain ⟨o, ho⟩ := List.exists_mem_of_ne_nil os hne
      obtain ⟨s, u, rfl⟩ := List.append_of_mem ho
      refine ⟨o, s ++ u, List.perm_middle, ?_, ?_⟩
      · rw [ea]
        have : (s ++ u).filterMap fa = [] := by
          simp only [List.filterMap_append, List.append_eq_nil_iff, List.filterMap_cons] at hA ⊢
          refine ⟨hA.1, ?_⟩
          have := hA.2
          split at this
          · exact this
          · cases this
        rw [this]
        exact t.prim.inRange_zero
      · rw [em]
        have : (s ++ u).filterMap fm = [] := by
          simp only [List.filterMap_append, List.append_eq_nil_iff, List.filterMap_cons] at hM ⊢
          refine ⟨hM.1, ?_⟩
          have := hM.2
          split at this
          · exact this
          · cases this
        rw [this]
        exact IntTy.inRange_one hb
    · rw [em] at hP
      obtain ⟨a, r, h1, h2⟩ := last_mult t.prim hb _ hM (fun a ha => by
        obtain ⟨o, ho, hoa⟩ := List.mem_filterMap.1 ha
        have := hok o ho
        rwa [hfm o a hoa] at this) hP
      obtain ⟨o, l, h3, h4, h5⟩ := perm_of_filterMap h1
      refine ⟨o, l, h4, ?_, by rw [em, h5.prod_eq]; exact h2⟩
      have : (C os).Perm (statInt.contrib o :: C l) := h4.map _
      rw [total_perm this, hfm o a h3] at hT
      exact hT
  · rw [ea] at hT
    obtain ⟨a, r, h1, h2⟩ := last_addend t.prim _ hA (fun a ha => by
      obtain ⟨o, ho, hoa⟩ := List.mem_filterMap.1 ha
      have := hok o ho
      rwa [hfa o a hoa] at this) hT
    obtain ⟨o, l, h3, h4, h5⟩ := perm_of_filterMap h1
    refine ⟨o, l, h4, by rw [ea, h5.sum_eq]; exact h2, ?_⟩
    have : (C os).Perm (statInt.contrib o :: C l) := h4.map _
    rw [product_perm this, hfa o a h3] at hP
    exact hP

theorem StatInt.leaf_returns (o : StatOp (statInt t))
    (ho : t.prim.InRange (statInt.contrib o).num) : ∃ v, (Tree.leaf o).run = .ok v := by
  cases o with
  | add a =>
    have ho : t.prim.InRange a := ho
    exact ⟨⟨a, t.minValue, t.maxValue, 1⟩, by
      simp [Tree.leaf, Tree.run, StatOp.writeTo, NumTy.add, NumTy.fit_inRange ho]⟩
  | mul a =>
    have ho : t.prim.InRange a := ho
    exact ⟨⟨0, t.minValue, t.maxValue, a⟩, by
      simp [Tree.leaf, Tree.run, StatOp.writeTo, NumTy.mul, NumTy.fit_inRange ho]⟩
  | min b => exact ⟨_, rfl⟩
  | max b => exact ⟨_, rfl⟩
  | base b => exact ⟨_, rfl⟩
  | or b => exact b.elim
  | not b => exact b.elim

/-- **C32, exactly**, for integers with overflow checks: some order of the operations does not panic, if and only if
the sum of all addends and the product of all multipliers are in the type. -/
theorem C32_some_order_iff (h : t.ovf = .panic) (hb : 1 < t.prim.bits) (os : List (StatOp (statInt t)))
    (hok : ∀ o ∈ os, t.prim.InRange (statInt.contrib o).num) :
    (∃ tr, AssemblyOf os tr ∧ ∃ v, tr.run = .ok v) ↔
      t.prim.InRange (total (os.map statInt.contrib)) ∧ t.prim.InRange (product (os.map statInt.contrib)) := by
  constructor
  · rintro ⟨tr, htr, v, hv⟩
    have := StatInt.run_inRange h hb tr v htr.noReset (fun o ho => hok o (htr.leaves.mem_iff.1 ho)) hv
    have hp : (C tr.leaves).Perm (C os) := htr.leaves.map _
    rwa [total_perm hp, product_perm hp] at this
  · rintro ⟨hT, hP⟩
    change t.prim.InRange (total (C os)) at hT
    change t.prim.InRange (product (C os)) at hP
    generalize hn : os.length = n
    induction n generalizing os with
    | zero =>
      cases List.length_eq_zero_iff.1 hn
      exact ⟨.dflt, ⟨trivial, List.Perm.refl _⟩, _, rfl⟩
    | succ n ih =>
      obtain ⟨o, l, hp, h1, h2⟩ := last_op hb os (by rintro rfl; cases hn) hok hT hP
      have hok' : ∀ x ∈ o :: l, t.prim.InRange (statInt.contrib x).num := fun x hx => hok x (hp.mem_iff.2 hx)
      obtain ⟨tr, htr, v, hv⟩ := ih l (fun x hx => hok' x (List.mem_cons_of_mem _ hx)) h1 h2
        (by have := hp.length_eq; simp only [List.length_cons] at this; omega)
      obtain ⟨w, hw⟩ := StatInt.leaf_returns o (hok' o List.mem_cons_self)
      have rep := StatInt.rep (IntNorm.exact h) tr v htr.noReset
        (fun x hx => hok' x (List.mem_cons_of_mem _ (htr.leaves.mem_iff.1 hx))) hv
      have rep' := StatInt.rep (IntNorm.exact h) (.leaf o) w (Tree.leaf_noReset o)
        (fun x hx => by
          rw [Tree.leaf_leaves, List.mem_singleton] at hx
          exact hok' x (hx ▸ List.mem_cons_self)) hw
      have hp' : (tr.leaves ++ (Tree.leaf o).leaves).Perm os := by
        rw [Tree.leaf_leaves]
        exact (List.perm_append_comm.trans (htr.leaves.cons o)).trans hp.symm
      have hp'' : (C (tr.leaves ++ (Tree.leaf o).leaves)).Perm (C os) := hp'.map _
      obtain ⟨x, hx⟩ := StatInt.join_returns h rep rep' (by rwa [total_perm hp'']) (by rwa [product_perm hp''])
      exact ⟨.join tr (.leaf o), ⟨⟨htr.noReset, Tree.leaf_noReset o⟩, hp'⟩, x, by
        rw [Tree.run, hv, Res.bind_ok, hw, Res.bind_ok, hx]⟩

/-! ### the same result in every order -/

theorem StatInt.run_error (h : t.ovf = .panic) (tr : Tree (statInt t)) (e : Err) (he : tr.run = .error e) :
    e = .panic := by
  have hf : ∀ x, t.fit x = .error e → e = .panic := by
    intro x hx
    unfold NumTy.fit at hx
    split at hx
    · cases hx
    · rw [h] at hx
      cases hx
      rfl
  induction tr with
  | dflt => cases he
  | base b => cases he
  | op tr o ih =>
    rw [Tree.run] at he
    cases hr : tr.run with
    | error e' => rw [hr] at he ih; cases he; exact ih rfl
    | ok v =>
      rw [hr, Res.bind_ok] at he
      cases o with
      | add a =>
        simp only [StatOp.writeTo, NumTy.add] at he
        cases hx : t.fit (v.addend + a) with
        | ok y => rw [hx] at he; cases he
        | error e' => rw [hx] at he; cases he; exact hf _ hx
      | mul a =>
        simp only [StatOp.writeTo, NumTy.mul] at he
        cases hx : t.fit (v.mult * a) with
        | ok y => rw [hx] at he; cases he
        | error e' => rw [hx] at he; cases he; exact hf _ hx
      | min b => cases he
      | max b => cases he
      | base b => cases he
      | or b => exact b.elim
      | not b => exact b.elim
  | join l r ihl ihr =>
    rw [Tree.run] at he
    cases hl : l.run with
    | error e' => rw [hl] at he ihl; cases he; exact ihl rfl
    | ok v =>
      rw [hl, Res.bind_ok] at he
      cases hr : r.run with
      | error e' => rw [hr] at he ihr; cases he; exact ihr rfl
      | ok w =>
        rw [hr, Res.bind_ok] at he
        simp only [NumTy.add, NumTy.mul] at he
        cases hx : t.fit (v.addend + w.addend) with
        | error e' => rw [hx] at he; cases he; exact hf _ hx
        | ok y =>
          rw [hx, Res.bind_ok] at he
          cases hz : t.fit (v.mult * w.mult) with
          | ok z => rw [hz] at he; cases he
          | error e' => rw [hz] at he; cases he; exact hf _ hz

/-- **C32, exactly**, for integers with overflow checks: all orders and groupings of the operations have the same
outcome, the same number or a panic, if and only if either every selection of the operations adds up and multiplies
out within the type (then none panics while assembling), or the sum, the product or the product of both is outside
the type (then all panic). -/
theorem C32_same_outcome_iff (h : t.ovf = .panic) (hb : 1 < t.prim.bits) (os : List (StatOp (statInt t)))
    (hok : ∀ o ∈ os, t.prim.InRange (statInt.contrib o).num) :
    (∀ s u, AssemblyOf os s → AssemblyOf os u →
        (s.run >>= fun v => (statInt t).eval v) = (u.run >>= fun v => (statInt t).eval v)) ↔
      SelectionsFit t os ∨ ¬ t.prim.InRange (total (os.map statInt.contrib)) ∨
        ¬ t.prim.InRange (product (os.map statInt.contrib)) ∨
        ¬ t.prim.InRange (total (os.map statInt.contrib) * product (os.map statInt.contrib)) := by
  let T := total (C os)
  let P := product (C os)
  have hevalE : ∀ v e, (statInt t).eval v = .error e → e = .panic := by
    intro v e he
    simp only [NumTy.mul] at he
    cases hx : t.fit (v.addend * v.mult) with
    | ok y => rw [hx] at he; cases he
    | error e' =>
      rw [hx] at he
      cases he
      unfold NumTy.fit at hx
      split at hx
      · cases hx
      · rw [h] at hx
        cases hx
        rfl
  have hrep : ∀ tr v, AssemblyOf os tr → tr.run = .ok v → v.addend = T ∧ v.mult = P := by
    intro tr v htr hv
    have rep := StatInt.rep (IntNorm.exact h) tr v htr.noReset (fun o ho => hok o (htr.leaves.mem_iff.1 ho)) hv
    have hp : (C tr.leaves).Perm (C os) := htr.leaves.map _
    have h1 : v.addend = total (C tr.leaves) := rep.addend
    have h2 : v.mult = product (C tr.leaves) := rep.mult
    rw [total_perm hp] at h1
    rw [product_perm hp] at h2
    exact ⟨h1, h2⟩
  constructor
  · intro hall
    by_contra hc
    push Not at hc
    obtain ⟨hS, hT, hP, hTP⟩ := hc
    rw [← C32_every_order_iff h hb os hok] at hS
    push Not at hS
    obtain ⟨s, hs, hbad⟩ := hS
    obtain ⟨u, hu, v, hv⟩ := (C32_some_order_iff h hb os hok).2 ⟨hT, hP⟩
    have hEq := hall s u hs hu
    obtain ⟨h1, h2⟩ := hrep u v hu hv
    have hfit : t.fit (v.addend * v.mult) = .ok (v.addend * v.mult) := by
      rw [h1, h2]
      exact NumTy.fit_inRange hTP
    have hright : (u.run >>= fun v => (statInt t).eval v) =
        .ok (t.max (t.min (v.addend * v.mult) v.max) v.min) := by
      rw [hv, Res.bind_ok]
      simp only [NumTy.mul, hfit, Res.bind_ok]
    rw [hright] at hEq
    obtain ⟨w, hw, -⟩ := Res.bind_eq_ok.1 hEq
    exact hbad w hw
  · rintro hc s u hs hu
    by_cases hS : SelectionsFit t os
    · obtain ⟨v, hv⟩ := (C32_every_order_iff h hb os hok).2 hS s hs
      obtain ⟨w, hw⟩ := (C32_every_order_iff h hb os hok).2 hS u hu
      rw [hv, hw, Res.bind_ok, Res.bind_ok]
      rw [StatInt.unordered (IntNorm.exact h) s u v w hs.noReset hu.noReset
        (fun o ho => hok o (hs.leaves.mem_iff.1 ho)) (hs.leaves.trans hu.leaves.symm) hv hw]
    · have hpanic : ∀ tr, AssemblyOf os tr → (tr.run >>= fun v => (statInt t).eval v) = .error .panic := by
        intro tr htr
        cases hr : tr.run with
        | error e => rw [StatInt.run_error h tr e hr]; rfl
        | ok v =>
          rw [Res.bind_ok]
          cases he : (statInt t).eval v with
          | error e => rw [hevalE v e he]
          | ok out =>
            exfalso
            obtain ⟨h1, h2⟩ := (C32_some_order_iff h hb os hok).1 ⟨tr, htr, v, hr⟩
            obtain ⟨e1, e2⟩ := hrep tr v htr hr
            simp only [NumTy.mul, Res.bind_eq_ok, NumTy.fit_panic h] at he
            obtain ⟨y, ⟨rfl, hy⟩, -⟩ := he
            rw [e1, e2] at hy
            rcases hc with hc | hc | hc | hc
            · exact hS hc
            · exact hc h1
            · exact hc h2
            · exact hc hy
      rw [hpanic s hs, hpanic u hu]

/-- Which sums can be selected: those of the addends are all in the type, if and only if the sum of the positive
ones and the sum of the negative ones are. -/
theorem C32_selected_sums (p : IntTy) (l : List Int) :
    (∀ S : List Int, S.Sublist l → p.InRange S.sum) ↔
      p.InRange (l.filter (0 < ·)).sum ∧ p.InRange (l.filter (· < 0)).sum := by
  constructor
  · exact fun h => ⟨h _ List.filter_sublist, h _ List.filter_sublist⟩
  · rintro ⟨h1, h2⟩ S hS
    have hle : S.sum ≤ (l.filter (0 < ·)).sum ∧ (l.filter (· < 0)).sum ≤ S.sum := by
      clear h1 h2
      induction hS with
      | slnil => simp
      | cons a _ ih =>
        simp only [List.filter_cons, decide_eq_true_eq]
        split_ifs <;> (try simp only [List.sum_cons]) <;> omega
      | cons_cons a _ ih =>
        simp only [List.filter_cons, decide_eq_true_eq]
        split_ifs <;> (try simp only [List.sum_cons]) <;> omega
    unfold IntTy.InRange at *
    omega

/-- `i8` with overflow checks: 100, 100 and -100 add up to 100 in one order and panic in another; 50, 70 and -100 add
up in every order -/
example : let t : NumTy := ⟨.i8, .prim, .debug⟩
    t.ovf = .panic ∧ 1 < t.prim.bits ∧
    (∀ o ∈ ([.add 100, .add 100, .add (-100)] : List (StatOp (statInt t))), t.prim.InRange (statInt.contrib o).num) ∧
    ((Tree.ofList (D := statInt t) [.add 100, .add (-100), .add 100]).run >>= fun v => (statInt t).eval v) = .ok 100 ∧
    (Tree.ofList (D := statInt t) [.add 100, .add 100, .add (-100)]).run = .error .panic ∧
    t.prim.InRange (([50, 70, -100] : List Int).filter (0 < ·)).sum ∧
    t.prim.InRange (([50, 70, -100] : List Int).filter (· < 0)).sum := by
  refine ⟨rfl, by decide, ?_, by decide, by decide, by decide, by decide⟩
  intro o ho
  simp only [List.mem_cons, List.not_mem_nil, or_false] at ho
  rcases ho with rfl | rfl | rfl <;> decide

end BSQ
