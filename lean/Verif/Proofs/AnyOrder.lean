import Verif.Proofs.Search
/-! # Partition points of lists in any order -/
namespace BSQ

theorem bsLoop_any (g : Nat → Ordering) (fuel base size : Nat) :
    base ≤ bsLoop g fuel base size ∧
      (bsLoop g fuel base size = base ∨ g (bsLoop g fuel base size) ≠ .gt) := by
  induction fuel generalizing base size with
  | zero => exact ⟨Nat.le_refl _, .inl rfl⟩
  | succ n ih =>
    rw [bsLoop]
    split
    · simp only
      by_cases hg : g (base + size / 2) = .gt
      · rw [if_pos hg]
        exact ih base (size - size / 2)
      · rw [if_neg hg]
        obtain ⟨a, b⟩ := ih (base + size / 2) (size - size / 2)
        refine ⟨by omega, .inr ?_⟩
        rcases b with b | b
        · rw [b]; exact hg
        · exact b
    · exact ⟨Nat.le_refl _, .inl rfl⟩

/-- two searches, the second going right wherever the first does: they end at the same place, or part at an
index between their ends -/
theorem bsLoop_two (f g : Nat → Ordering) (hfg : ∀ i, f i ≠ .gt → g i ≠ .gt) (fuel base size : Nat) :
    bsLoop f fuel base size = bsLoop g fuel base size ∨
      ∃ mid, bsLoop f fuel base size < mid ∧ mid ≤ bsLoop g fuel base size ∧ f mid = .gt ∧ g mid ≠ .gt ∧
        g (bsLoop g fuel base size) ≠ .gt := by
  induction fuel generalizing base size with
  | zero => exact .inl rfl
  | succ n ih =>
    rw [bsLoop, bsLoop]
    split
    · rename_i h1
      simp only
      by_cases hf : f (base + size / 2) = .gt
      · by_cases hg : g (base + size / 2) = .gt
        · rw [if_pos hf, if_pos hg]
          exact ih base (size - size / 2)
        · rw [if_pos hf, if_neg hg]
          have a1 := bsLoop_lt f n base (size - size / 2) (by omega)
          obtain ⟨-, a2⟩ := bsLoop_any f n base (size - size / 2)
          obtain ⟨b1, b2⟩ := bsLoop_any g n (base + size / 2) (size - size / 2)
          have a3 : bsLoop f n base (size - size / 2) ≠ base + size / 2 := by
            intro he
            rcases a2 with a2 | a2
            · omega
            · rw [he] at a2; exact a2 hf
          refine .inr ⟨base + size / 2, by omega, b1, hf, hg, ?_⟩
          rcases b2 with b2 | b2
          · rw [b2]; exact hg
          · exact b2
      · rw [if_neg hf, if_neg (hfg _ hf)]
        exact ih (base + size / 2) (size - size / 2)
    · exact .inl rfl

variable {α : Type} {l : List α}

/-- the partition point in terms of the loop -/
theorem partitionPoint_eq (h0 : l.length ≠ 0) (p : α → Bool) :
    let g := fun i => (l[i]?).elim Ordering.gt (fun x => if p x then .lt else .gt)
    let b := bsLoop g l.length 0 l.length
    b < l.length ∧ partitionPoint l p = if g b = .gt then b else b + 1 := by
  intro g b
  have hb : b < l.length := by
    have := bsLoop_lt g l.length 0 l.length (by omega)
    simpa using this
  refine ⟨hb, ?_⟩
  have hd : partitionPoint l p = match (match g b with
      | .eq => Except.ok b
      | .lt => Except.error (b + 1)
      | .gt => Except.error b : Except Nat Nat) with
      | .ok i => i
      | .error i => i := by
    unfold partitionPoint binarySearchBy
    simp only [h0, if_false]
    rfl
  rw [hd]
  have hv : g b = if p l[b] then .lt else .gt := by simp [g, hb]
  cases hp : p l[b] <;> rw [hp] at hv <;> simp [hv]

theorem partitionPoint_le_length (p : α → Bool) : partitionPoint l p ≤ l.length := by
  by_cases h0 : l.length = 0
  · have : l = [] := List.length_eq_zero_iff.1 h0
    subst this
    simp [partitionPoint, binarySearchBy]
  · obtain ⟨h1, h2⟩ := partitionPoint_eq h0 p
    rw [h2]
    split <;> omega

/-- the partition points of a predicate and a weaker one, the list being in any order -/
theorem partitionPoint_two {p q : α → Bool} (hpq : ∀ x, p x = true → q x = true) :
    partitionPoint l p = partitionPoint l q ∨
      ∃ i, ∃ hi : i < l.length, partitionPoint l p ≤ i ∧ i < partitionPoint l q ∧
        p l[i] = false ∧ q l[i] = true := by
  by_cases h0 : l.length = 0
  · have : l = [] := List.length_eq_zero_iff.1 h0
    subst this
    exact .inl rfl
  obtain ⟨a1, a2⟩ := partitionPoint_eq h0 p
  obtain ⟨b1, b2⟩ := partitionPoint_eq h0 q
  set f : Nat → Ordering := fun i => (l[i]?).elim Ordering.gt (fun x => if p x then .lt else .gt) with hf
  set g : Nat → Ordering := fun i => (l[i]?).elim Ordering.gt (fun x => if q x then .lt else .gt) with hg
  have fval : ∀ i (hi : i < l.length), f i = .gt ↔ p l[i] = false := fun i hi => by
    cases h : p l[i] <;> simp [hf, hi, h]
  have gval : ∀ i (hi : i < l.length), g i = .gt ↔ q l[i] = false := fun i hi => by
    cases h : q l[i] <;> simp [hg, hi, h]
  have hfg : ∀ i, f i ≠ .gt → g i ≠ .gt := by
    intro i h
    by_cases hi : i < l.length
    · rw [Ne, fval i hi] at h
      rw [Ne, gval i hi]
      simpa using hpq _ (by simpa using h)
    · exact absurd (by simp [hf, hi]) h
  rcases bsLoop_two f g hfg l.length 0 l.length with he | ⟨mid, c1, c2, c3, c4, c5⟩
  · rw [← he] at b1 b2
    by_cases hp : f (bsLoop f l.length 0 l.length) = .gt
    · by_cases hq : g (bsLoop f l.length 0 l.length) = .gt
      · left; rw [a2, b2, if_pos hp, if_pos hq]
      · right
        refine ⟨_, a1, ?_, ?_, (fval _ a1).1 hp, ?_⟩
        · rw [a2, if_pos hp]; exact Nat.le_refl _
        · rw [b2, if_neg hq]; exact Nat.lt_succ_self _
        · rw [gval _ a1] at hq
          simpa using hq
    · left; rw [a2, b2, if_neg hp, if_neg (hfg _ hp)]
  · right
    have hm : mid < l.length := by omega
    refine ⟨mid, hm, ?_, ?_, (fval _ hm).1 c3, ?_⟩
    · rw [a2]; split <;> omega
    · rw [b2, if_neg c5]; omega
    · rw [Ne, gval _ hm] at c4
      simpa using c4

end BSQ
