import Verif.Model.StatMap
import Mathlib.Data.List.Basic
/-! # Binary search and partition point are exact on ordered lists -/
namespace BSQ

theorem bsLoop_spec (g : Nat → Ordering) (fuel base size : Nat) (hs : 1 ≤ size) (hf : size ≤ fuel + 1)
    (mono : ∀ i j, i ≤ j → j < base + size → g i = .gt → g j = .gt) :
    base ≤ bsLoop g fuel base size ∧ bsLoop g fuel base size < base + size ∧
    (bsLoop g fuel base size = base ∨ g (bsLoop g fuel base size) ≠ .gt) ∧
    (∀ j, bsLoop g fuel base size < j → j < base + size → g j = .gt) := by
  induction fuel generalizing base size with
  | zero =>
    show base ≤ base ∧ base < base + size ∧ (base = base ∨ g base ≠ .gt) ∧ _
    refine ⟨Nat.le_refl _, by omega, .inl rfl, fun j h1 h2 => by
      have h1 : base < j := h1
      omega⟩
  | succ n ih =>
    rw [bsLoop]
    split
    · rename_i h1
      simp only
      have hh : 1 ≤ size / 2 := by omega
      by_cases hg : g (base + size / 2) = .gt
      · rw [if_pos hg]
        obtain ⟨a, b, c, d⟩ := ih base (size - size / 2) (by omega) (by omega)
          (fun i j hij hj => mono i j hij (by omega))
        refine ⟨a, by omega, c, fun j hj hj2 => ?_⟩
        by_cases hjm : j < base + (size - size / 2)
        · exact d j hj hjm
        · exact mono (base + size / 2) j (by omega) hj2 hg
      · rw [if_neg hg]
        obtain ⟨a, b, c, d⟩ := ih (base + size / 2) (size - size / 2) (by omega) (by omega)
          (fun i j hij hj => mono i j hij (by omega))
        refine ⟨by omega, by omega, .inr ?_, fun j hj hj2 => d j hj (by omega)⟩
        rcases c with c | c
        · rw [c]; exact hg
        · exact c
    · exact ⟨Nat.le_refl _, by omega, .inl rfl, fun j h1 h2 => by omega⟩

/-- the probed index is in bounds, whatever the order of the list -/
theorem bsLoop_lt (g : Nat → Ordering) (fuel base size : Nat) (hs : 1 ≤ size) :
    bsLoop g fuel base size < base + size := by
  induction fuel generalizing base size with
  | zero => simp only [bsLoop]; omega
  | succ n ih =>
    rw [bsLoop]
    split
    · simp only
      split
      · have := ih base (size - size / 2) (by omega); omega
      · have := ih (base + size / 2) (size - size / 2) (by omega); omega
    · omega

/-- `f` compares the elements of `l` in order: first the smaller ones, then the equal, then the greater -/
def Ordered {α : Type} (l : List α) (f : α → Ordering) : Prop :=
  l.Pairwise (fun a b => (f a = .gt → f b = .gt) ∧ (f b = .lt → f a = .lt))

variable {α : Type} {l : List α} {f : α → Ordering}

theorem Ordered.get (h : Ordered l f) {i j : Nat} (hij : i < j) (hj : j < l.length) :
    (f (l[i]'(by omega)) = .gt → f l[j] = .gt) ∧ (f l[j] = .lt → f (l[i]'(by omega)) = .lt) :=
  List.pairwise_iff_getElem.1 h i j (by omega) hj hij

theorem binarySearchBy_spec (h : Ordered l f) :
    match binarySearchBy l f with
    | .ok i => ∃ hi : i < l.length, f l[i] = .eq
    | .error i => i ≤ l.length ∧ (∀ j (hj : j < l.length), j < i → f l[j] = .lt) ∧
        (∀ j (hj : j < l.length), i ≤ j → f l[j] = .gt) := by
  unfold binarySearchBy
  by_cases h0 : l.length = 0
  · simp [h0]
  simp only [h0, if_false]
  set g : Nat → Ordering := fun i => (l[i]?).elim .gt f with hg
  have gval : ∀ i (hi : i < l.length), g i = f l[i] := fun i hi => by simp [hg, hi]
  obtain ⟨h1, h2, h3, h4⟩ := bsLoop_spec g l.length 0 l.length (by omega) (by omega) (by
    intro i j hij hj hgt
    rw [gval j (by omega)]
    rw [gval i (by omega)] at hgt
    rcases Nat.lt_or_eq_of_le hij with hlt | rfl
    · exact (h.get hlt (by omega)).1 hgt
    · exact hgt)
  set b := bsLoop g l.length 0 l.length with hb
  have hbl : b < l.length := by omega
  have gb := gval b hbl
  show match (match g b with
    | .eq => Except.ok b
    | .lt => Except.error (b + 1)
    | .gt => Except.error b : Except Nat Nat) with
    | .ok i => ∃ hi : i < l.length, f l[i] = .eq
    | .error i => i ≤ l.length ∧ (∀ j (hj : j < l.length), j < i → f l[j] = .lt) ∧
        (∀ j (hj : j < l.length), i ≤ j → f l[j] = .gt)
  cases hc : g b with
  | eq => exact ⟨hbl, gb.symm.trans hc⟩
  | lt =>
    refine ⟨by omega, fun j hj hjb => ?_, fun j hj hjb => ?_⟩
    · rcases Nat.lt_or_eq_of_le (Nat.lt_succ_iff.1 hjb) with hlt | rfl
      · exact (h.get hlt hbl).2 (gb.symm.trans hc)
      · exact gb.symm.trans hc
    · have := h4 j (by omega) (by omega)
      rwa [gval j hj] at this
  | gt =>
    rcases h3 with h3 | h3
    · refine ⟨by omega, fun j hj hjb => by omega, fun j hj hjb => ?_⟩
      rcases Nat.lt_or_eq_of_le hjb with hlt | heq
      · exact (h.get hlt hj).1 (gb.symm.trans hc)
      · subst heq; exact gb.symm.trans hc
    · exact absurd hc h3

theorem partitionPoint_spec {p : α → Bool} (h : l.Pairwise (fun a b => p b = true → p a = true)) :
    partitionPoint l p ≤ l.length ∧ l.take (partitionPoint l p) = l.filter p ∧
      l.drop (partitionPoint l p) = l.filter (fun x => !p x) := by
  have ho : Ordered l (fun x => if p x then .lt else .gt) := by
    refine h.imp ?_
    intro a b hab
    cases ha : p a <;> cases hb : p b <;> simp_all
  have key := binarySearchBy_spec ho
  unfold partitionPoint
  split at key
  · rename_i i hi
    obtain ⟨_, h2⟩ := key
    split at h2 <;> cases h2
  · rename_i i hi
    rw [hi]
    obtain ⟨k1, k2, k3⟩ := key
    have h2 : ∀ x ∈ l.take i, p x = true := by
      intro x hx
      obtain ⟨j, hj, rfl⟩ := List.mem_iff_getElem.1 hx
      simp only [List.length_take] at hj
      have := k2 j (by omega) (by omega)
      rw [List.getElem_take]
      by_contra hc
      simp [hc] at this
    have h3 : ∀ x ∈ l.drop i, p x = false := by
      intro x hx
      obtain ⟨j, hj, rfl⟩ := List.mem_iff_getElem.1 hx
      simp only [List.length_drop] at hj
      have := k3 (i + j) (by omega) (by omega)
      rw [List.getElem_drop]
      by_contra hc
      simp [hc] at this
    refine ⟨k1, ?_, ?_⟩
    · conv_rhs => rw [← List.take_append_drop i l]
      rw [List.filter_append, List.filter_eq_self.2 h2, List.filter_eq_nil_iff.2 (by
        intro a ha; simp [h3 a ha]), List.append_nil]
    · conv_rhs => rw [← List.take_append_drop i l]
      rw [List.filter_append, List.filter_eq_nil_iff.2 (by
        intro a ha; simp [h2 a ha]), List.filter_eq_self.2 (by intro a ha; simp [h3 a ha]),
        List.nil_append]

end BSQ

/-! ### binary search in a list of unknown order -/
namespace BSQ

theorem bsLoop_ge (g : Nat → Ordering) (fuel base size : Nat) :
    base ≤ bsLoop g fuel base size ∧ (bsLoop g fuel base size = base ∨ g (bsLoop g fuel base size) ≠ .gt) := by
  induction fuel generalizing base size with
  | zero => exact ⟨Nat.le_refl _, .inl rfl⟩
  | succ n ih =>
    rw [bsLoop]
    split
    · simp only
      by_cases hg : g (base + size / 2) = .gt
      · rw [if_pos hg]; exact ih base _
      · rw [if_neg hg]
        obtain ⟨h1, h2⟩ := ih (base + size / 2) (size - size / 2)
        refine ⟨by omega, .inr ?_⟩
        rcases h2 with h2 | h2
        · rw [h2]; exact hg
        · exact h2
    · exact ⟨Nat.le_refl _, .inl rfl⟩

/-- two searches that end at different places were told apart by some element -/
theorem bsLoop_diverge (g g' : Nat → Ordering) (fuel base size : Nat)
    (h : bsLoop g fuel base size < bsLoop g' fuel base size) : ∃ m, g m = .gt ∧ g' m ≠ .gt := by
  induction fuel generalizing base size with
  | zero => exact absurd h (Nat.lt_irrefl base)
  | succ n ih =>
    rw [bsLoop, bsLoop] at h
    by_cases hs : 1 < size
    · simp only [hs, if_true] at h
      by_cases hg : g (base + size / 2) = .gt
      · by_cases hg' : g' (base + size / 2) = .gt
        · simp only [hg, hg', if_true] at h; exact ih _ _ h
        · exact ⟨_, hg, hg'⟩
      · by_cases hg' : g' (base + size / 2) = .gt
        · simp only [hg, hg', if_true, if_false] at h
          have h1 := (bsLoop_ge g n (base + size / 2) (size - size / 2)).1
          have h2 := bsLoop_lt g' n base (size - size / 2) (by omega)
          rcases (bsLoop_ge g' n base (size - size / 2)).2 with h3 | h3
          · omega
          · have : bsLoop g' n base (size - size / 2) = base + size / 2 := by omega
            rw [this] at h3
            exact absurd hg' h3
        · simp only [hg, hg', if_false] at h; exact ih _ _ h
    · simp only [hs, if_false] at h; exact absurd h (Nat.lt_irrefl base)

/-- a list in which binary search finds two elements at their places has them in order -/
theorem binarySearchBy_order {α : Type} (l : List α) (f f' : α → Ordering) {i j : Nat} (hij : i < j)
    (hi : binarySearchBy l f = .ok i) (hj : binarySearchBy l f' = .ok j) :
    ∃ x ∈ l, f x = .gt ∧ f' x ≠ .gt := by
  unfold binarySearchBy at hi hj
  have key : ∀ (f : α → Ordering) (i : Nat), (if l.length = 0 then Except.error 0 else
      match (fun i => (l[i]?).elim .gt f) (bsLoop (fun i => (l[i]?).elim .gt f) l.length 0 l.length) with
      | .eq => Except.ok (bsLoop (fun i => (l[i]?).elim .gt f) l.length 0 l.length)
      | .lt => .error (bsLoop (fun i => (l[i]?).elim .gt f) l.length 0 l.length + 1)
      | .gt => .error (bsLoop (fun i => (l[i]?).elim .gt f) l.length 0 l.length)) = .ok i →
      bsLoop (fun i => (l[i]?).elim .gt f) l.length 0 l.length = i := by
    intro f i h
    split at h
    · cases h
    · split at h
      · exact Except.ok.inj h
      · cases h
      · cases h
  have h1 := key f i hi
  have h2 := key f' j hj
  rw [← h1, ← h2] at hij
  obtain ⟨m, hm, hm'⟩ := bsLoop_diverge _ _ _ _ _ hij
  cases hx : l[m]? with
  | none => rw [hx] at hm'; exact absurd rfl hm'
  | some x =>
    rw [hx] at hm hm'
    exact ⟨x, List.mem_of_getElem? hx, hm, hm'⟩

end BSQ
