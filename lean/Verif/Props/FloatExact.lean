import Verif.Props.FloatMul
/-!
# C24 for operands whose sums and products are exact
-/
namespace BSQ
open Contrib

theorem Fl.add_rep {f : Fmt} (hf : f.Normal) {a b : ℚ} (h : f.Rep (a + b)) :
    Fl.add f (.fin a) (.fin b) = .fin (a + b) := by
  simp only [Fl.add]
  exact f.rnd_rep hf h
theorem ExactSums.mono {M B : Type} {f : Fmt} {C K : List (Contrib ℚ M B)} (h : ExactSums f C)
    (hk : K.Subperm C) : ExactSums f K := fun J hJ => h J (hJ.trans hk)
theorem ExactMultSums.mono {A B : Type} {f : Fmt} {C K : List (Contrib A ℚ B)} (h : ExactMultSums f C)
    (hk : K.Subperm C) : ExactMultSums f K := fun J hJ => h J (hJ.trans hk)

/-- C24, a part that holds: the assembled `StatFloat` carries the exact sum of its addends provided no sum of
some of them needs rounding, and the exact product of its multipliers provided no product of some of them does,
whatever the order and grouping.  This covers `C24_exact_partial` and e.g. halves and quarters.  Missing:
operands that get rounded, where the claim is false (`C24_refuted`). -/
theorem C24_exact_float_partial (f : Fmt) (hf : f.Normal) (tr : Tree (statFloat (Fl.ops f))) (hr : tr.NoReset)
    (hw : ∀ o ∈ tr.leaves, statFloat.Finite o) (v : StatFloat Fl) (hv : tr.run = .ok v) :
    let C := tr.leaves.map statFloat.exactContrib
    (ExactSums f C → v.addend = .fin (total C)) ∧ (ExactProducts f C → v.mult = .fin (product C)) := by
  refine Tree.run_rep (fun v L => let C := L.map statFloat.exactContrib
    (ExactSums f C → v.addend = .fin (total C)) ∧ (ExactProducts f C → v.mult = .fin (product C)))
    statFloat.Finite ?_ ?_ ?_ ?_ tr v hr hw hv
  · exact ⟨fun _ => rfl, fun _ => rfl⟩
  · rintro _ ⟨q, rfl⟩
    exact ⟨fun _ => by simp [statFloat.exactContrib, total, Fl.toQ], fun _ => rfl⟩
  · intro v L o v' hnb ho ⟨h1, h2⟩ e
    simp only [List.map_append, List.map_singleton, total_append, product_append]
    have hsub : (L.map statFloat.exactContrib).Subperm
        (L.map statFloat.exactContrib ++ [statFloat.exactContrib o]) := (List.sublist_append_left _ _).subperm
    have g1 := fun hs : ExactSums f _ => h1 (hs.mono hsub)
    have g2 := fun hs : ExactProducts f _ => h2 (hs.mono hsub)
    cases o with
    | or x => exact x.elim
    | not x => exact x.elim
    | base x => exact absurd trivial hnb
    | add a =>
      obtain ⟨q, rfl⟩ := ho
      cases e
      refine ⟨fun hs => ?_, fun hs => by simpa [statFloat.exactContrib, product] using g2 hs⟩
      have := hs _ (List.Subperm.refl _)
      rw [total_append] at this
      simp only [g1 hs, statFloat.exactContrib, Fl.toQ, total, add_zero] at this ⊢
      exact Fl.add_rep hf this
    | mul m =>
      obtain ⟨q, rfl⟩ := ho
      cases e
      refine ⟨fun hs => by simpa [statFloat.exactContrib, total] using g1 hs, fun hs => ?_⟩
      have := hs _ (List.Subperm.refl _)
      rw [product_append] at this
      simp only [g2 hs, statFloat.exactContrib, Fl.toQ, product, mul_one] at this ⊢
      exact Fl.mul_rep hf this
    | min b =>
      cases e
      exact ⟨fun hs => by simpa [statFloat.exactContrib, total] using g1 hs,
        fun hs => by simpa [statFloat.exactContrib, product] using g2 hs⟩
    | max b =>
      cases e
      exact ⟨fun hs => by simpa [statFloat.exactContrib, total] using g1 hs,
        fun hs => by simpa [statFloat.exactContrib, product] using g2 hs⟩
  · intro a b L K v ⟨a1, a2⟩ ⟨b1, b2⟩ e
    cases e
    simp only [List.map_append, total_append, product_append]
    have hl := (List.sublist_append_left (L.map statFloat.exactContrib) (K.map statFloat.exactContrib)).subperm
    have hr := (List.sublist_append_right (L.map statFloat.exactContrib) (K.map statFloat.exactContrib)).subperm
    refine ⟨fun hs => ?_, fun hs => ?_⟩
    · have := hs _ (List.Subperm.refl _)
      rw [total_append] at this
      rw [a1 (hs.mono hl), b1 (hs.mono hr)]
      exact Fl.add_rep hf this
    · have := hs _ (List.Subperm.refl _)
      rw [product_append] at this
      rw [a2 (hs.mono hl), b2 (hs.mono hr)]
      exact Fl.mul_rep hf this

/-- C24, a part that holds: permuted operations assemble the same `StatFloat`, and hence evaluate alike,
provided no sum or product of some of the operands needs rounding. -/
theorem C24_unordered_float_partial (f : Fmt) (hf : f.Normal) (s u : Tree (statFloat (Fl.ops f)))
    (hs : s.NoReset) (hu : u.NoReset) (hw : ∀ o ∈ s.leaves, statFloat.Finite o)
    (hp : s.leaves.Perm u.leaves) (hS : ExactSums f (s.leaves.map statFloat.exactContrib))
    (hP : ExactProducts f (s.leaves.map statFloat.exactContrib)) : s.run = u.run := by
  obtain ⟨v, w, hv, hw', h3, h4⟩ := C24_bounds_partial f s u hs hu hp
  have hp' := hp.map statFloat.exactContrib
  obtain ⟨a1, a2⟩ := C24_exact_float_partial f hf s hs hw v hv
  obtain ⟨b1, b2⟩ := C24_exact_float_partial f hf u hu (fun o ho => hw o (hp.mem_iff.2 ho)) w hw'
  have a1 := a1 hS
  have a2 := a2 hP
  have b1 := b1 (hS.mono hp'.symm.subperm)
  have b2 := b2 (hP.mono hp'.symm.subperm)
  rw [← total_perm hp'] at b1
  rw [← product_perm hp'] at b2
  rw [hv, hw']
  cases v; cases w
  simp only at a1 a2 b1 b2 h3 h4
  rw [a1, a2, b1, b2, h3, h4]

/-- C24 for `StatFloatAdditive`: exact sums of addends and of multipliers -/
theorem C24_exact_additive_partial (f : Fmt) (hf : f.Normal) (tr : Tree (statFloatAdditive (Fl.ops f)))
    (hr : tr.NoReset) (hw : ∀ o ∈ tr.leaves, statFloatAdditive.Finite o) (v : StatFloatAdditive Fl)
    (hv : tr.run = .ok v) :
    let C := tr.leaves.map statFloatAdditive.exactContrib
    (ExactSums f C → v.addend = .fin (total C)) ∧ (ExactMultSums f C → v.mult = .fin (multSum C)) := by
  refine Tree.run_rep (fun v L => let C := L.map statFloatAdditive.exactContrib
    (ExactSums f C → v.addend = .fin (total C)) ∧ (ExactMultSums f C → v.mult = .fin (multSum C)))
    statFloatAdditive.Finite ?_ ?_ ?_ ?_ tr v hr hw hv
  · exact ⟨fun _ => rfl, fun _ => rfl⟩
  · rintro _ ⟨q, rfl⟩
    exact ⟨fun _ => by simp [statFloatAdditive.exactContrib, total, Fl.toQ], fun _ => rfl⟩
  · intro v L o v' hnb ho ⟨h1, h2⟩ e
    simp only [List.map_append, List.map_singleton, total_append, multSum_append]
    have hsub : (L.map statFloatAdditive.exactContrib).Subperm
        (L.map statFloatAdditive.exactContrib ++ [statFloatAdditive.exactContrib o]) :=
      (List.sublist_append_left _ _).subperm
    have g1 := fun hs : ExactSums f _ => h1 (hs.mono hsub)
    have g2 := fun hs : ExactMultSums f _ => h2 (hs.mono hsub)
    cases o with
    | or x => exact x.elim
    | not x => exact x.elim
    | base x => exact absurd trivial hnb
    | add a =>
      obtain ⟨q, rfl⟩ := ho
      cases e
      refine ⟨fun hs => ?_, fun hs => by simpa [statFloatAdditive.exactContrib, multSum] using g2 hs⟩
      have := hs _ (List.Subperm.refl _)
      rw [total_append] at this
      simp only [g1 hs, statFloatAdditive.exactContrib, Fl.toQ, total, add_zero] at this ⊢
      exact Fl.add_rep hf this
    | mul m =>
      obtain ⟨q, rfl⟩ := ho
      cases e
      refine ⟨fun hs => by simpa [statFloatAdditive.exactContrib, total] using g1 hs, fun hs => ?_⟩
      have := hs _ (List.Subperm.refl _)
      rw [multSum_append] at this
      simp only [g2 hs, statFloatAdditive.exactContrib, Fl.toQ, multSum, add_zero] at this ⊢
      exact Fl.add_rep hf this
    | min b =>
      cases e
      exact ⟨fun hs => by simpa [statFloatAdditive.exactContrib, total] using g1 hs,
        fun hs => by simpa [statFloatAdditive.exactContrib, multSum] using g2 hs⟩
    | max b =>
      cases e
      exact ⟨fun hs => by simpa [statFloatAdditive.exactContrib, total] using g1 hs,
        fun hs => by simpa [statFloatAdditive.exactContrib, multSum] using g2 hs⟩
  · intro a b L K v ⟨a1, a2⟩ ⟨b1, b2⟩ e
    cases e
    simp only [List.map_append, total_append, multSum_append]
    have hl := (List.sublist_append_left (L.map statFloatAdditive.exactContrib)
      (K.map statFloatAdditive.exactContrib)).subperm
    have hr := (List.sublist_append_right (L.map statFloatAdditive.exactContrib)
      (K.map statFloatAdditive.exactContrib)).subperm
    refine ⟨fun hs => ?_, fun hs => ?_⟩
    · have := hs _ (List.Subperm.refl _)
      rw [total_append] at this
      rw [a1 (hs.mono hl), b1 (hs.mono hr)]
      exact Fl.add_rep hf this
    · have := hs _ (List.Subperm.refl _)
      rw [multSum_append] at this
      rw [a2 (hs.mono hl), b2 (hs.mono hr)]
      exact Fl.add_rep hf this

/-- C24 for `StatMult`: exact products of multipliers (bases included) -/
theorem C24_exact_mult_partial (f : Fmt) (hf : f.Normal) (tr : Tree (statMult (Fl.ops f)))
    (hr : tr.NoReset) (hw : ∀ o ∈ tr.leaves, statMult.Finite o) (v : StatMult Fl) (hv : tr.run = .ok v) :
    let C := tr.leaves.map statMult.exactContrib
    ExactProducts f C → v.mult = .fin (product C) := by
  refine Tree.run_rep (fun v L => let C := L.map statMult.exactContrib
    ExactProducts f C → v.mult = .fin (product C)) statMult.Finite ?_ ?_ ?_ ?_ tr v hr hw hv
  · exact fun _ => rfl
  · rintro _ ⟨q, rfl⟩
    exact fun _ => by simp [statMult.exactContrib, product, Fl.toQ]
  · intro v L o v' hnb ho h2 e
    simp only [List.map_append, List.map_singleton, product_append]
    have hsub : (L.map statMult.exactContrib).Subperm
        (L.map statMult.exactContrib ++ [statMult.exactContrib o]) := (List.sublist_append_left _ _).subperm
    have g2 := fun hs : ExactProducts f _ => h2 (hs.mono hsub)
    cases o with
    | add x => exact x.elim
    | or x => exact x.elim
    | not x => exact x.elim
    | base x => exact absurd trivial hnb
    | mul m =>
      obtain ⟨q, rfl⟩ := ho
      cases e
      intro hs
      have := hs _ (List.Subperm.refl _)
      rw [product_append] at this
      simp only [g2 hs, statMult.exactContrib, Fl.toQ, product, mul_one] at this ⊢
      exact Fl.mul_rep hf this
    | min b => cases e; exact fun hs => by simpa [statMult.exactContrib, product] using g2 hs
    | max b => cases e; exact fun hs => by simpa [statMult.exactContrib, product] using g2 hs
  · intro a b L K v a2 b2 e
    cases e
    simp only [List.map_append, product_append]
    intro hs
    have := hs _ (List.Subperm.refl _)
    rw [product_append] at this
    rw [a2 (hs.mono (List.sublist_append_left _ _).subperm),
      b2 (hs.mono (List.sublist_append_right _ _).subperm)]
    exact Fl.mul_rep hf this

/-- the sums and products of some of the operands of the example below are multiples of an eighth -/
theorem exactDemo_total : ∀ K ∈ ([.add (1 / 2), .mul (3 / 2), .add (1 / 4)] : List (Contrib ℚ ℚ Unit)).sublists,
    ∃ m : ℤ, |m| ≤ 16 ∧ total K = m / 8 := by
  intro K hK
  rw [show ([.add (1 / 2), .mul (3 / 2), .add (1 / 4)] : List (Contrib ℚ ℚ Unit)).sublists =
    [[], [.add (1 / 2)], [.mul (3 / 2)], [.add (1 / 2), .mul (3 / 2)], [.add (1 / 4)],
      [.add (1 / 2), .add (1 / 4)], [.mul (3 / 2), .add (1 / 4)], [.add (1 / 2), .mul (3 / 2), .add (1 / 4)]]
    from rfl] at hK
  simp only [List.mem_cons, List.not_mem_nil, or_false] at hK
  rcases hK with rfl | rfl | rfl | rfl | rfl | rfl | rfl | rfl
  · exact ⟨0, by decide, by decide +kernel⟩
  · exact ⟨4, by decide, by decide +kernel⟩
  · exact ⟨0, by decide, by decide +kernel⟩
  · exact ⟨4, by decide, by decide +kernel⟩
  · exact ⟨2, by decide, by decide +kernel⟩
  · exact ⟨6, by decide, by decide +kernel⟩
  · exact ⟨2, by decide, by decide +kernel⟩
  · exact ⟨6, by decide, by decide +kernel⟩
theorem exactDemo_product : ∀ K ∈ ([.add (1 / 2), .mul (3 / 2), .add (1 / 4)] : List (Contrib ℚ ℚ Unit)).sublists,
    ∃ m : ℤ, |m| ≤ 16 ∧ product K = m / 8 := by
  intro K hK
  rw [show ([.add (1 / 2), .mul (3 / 2), .add (1 / 4)] : List (Contrib ℚ ℚ Unit)).sublists =
    [[], [.add (1 / 2)], [.mul (3 / 2)], [.add (1 / 2), .mul (3 / 2)], [.add (1 / 4)],
      [.add (1 / 2), .add (1 / 4)], [.mul (3 / 2), .add (1 / 4)], [.add (1 / 2), .mul (3 / 2), .add (1 / 4)]]
    from rfl] at hK
  simp only [List.mem_cons, List.not_mem_nil, or_false] at hK
  rcases hK with rfl | rfl | rfl | rfl | rfl | rfl | rfl | rfl <;>
    first | exact ⟨8, by decide, by decide +kernel⟩ | exact ⟨12, by decide, by decide +kernel⟩

/-- a case with operands that are not whole: `(1/2 + 1/4) * 3/2`; all sums and products are exact -/
example : let D := statFloat (Fl.ops .f32)
    let tr : Tree D := .join (.op (.base (.fin (1 / 2))) (.mul (.fin (3 / 2)))) (.op .dflt (.add (.fin (1 / 4))))
    tr.NoReset ∧ (∀ o ∈ tr.leaves, statFloat.Finite o) ∧
    ExactSums .f32 (tr.leaves.map statFloat.exactContrib) ∧
    ExactProducts .f32 (tr.leaves.map statFloat.exactContrib) ∧
    (tr.run >>= fun v => D.eval v) = .ok (.fin (9 / 8)) := by
  have sub : ∀ (a b c : Contrib ℚ ℚ Unit) (P : List (Contrib ℚ ℚ Unit) → Prop),
      (∀ K ∈ [a, b, c].sublists, P K) → (∀ K L, K.Perm L → P K → P L) → ∀ K, K.Subperm [a, b, c] → P K :=
    fun a b c P h hp K ⟨L, hL, hK⟩ => hp L K hL (h L (by simpa [List.mem_sublists] using hK))
  have rep : ∀ m : ℤ, |m| ≤ 16 → Fmt.f32.Rep (m / 8) := fun m hm => by
    refine ⟨m, -3, by norm_num [div_eq_mul_inv], hm.trans (by decide), by decide, ?_⟩
    have : |(m : ℚ)| ≤ 16 := by exact_mod_cast hm
    rw [abs_div]
    calc |(m : ℚ)| / |8| ≤ 16 / |8| := by gcongr
      _ < 2 ^ Fmt.f32.emax := by norm_num [Fmt.f32]
  refine ⟨by simp [Tree.NoReset, StatOp.IsBase], ?_, ?_, ?_, by decide +kernel⟩
  · intro o ho
    simp only [Tree.leaves, List.nil_append, List.cons_append, List.mem_cons, List.not_mem_nil, or_false] at ho
    rcases ho with rfl | rfl | rfl <;> exact ⟨_, rfl⟩
  · refine sub _ _ _ (fun K => Fmt.f32.Rep (total K)) ?_ (fun K L h => total_perm h ▸ id)
    intro K hK
    obtain ⟨m, h1, h2⟩ := exactDemo_total K hK
    exact h2 ▸ rep m h1
  · refine sub _ _ _ (fun K => Fmt.f32.Rep (product K)) ?_ (fun K L h => product_perm h ▸ id)
    intro K hK
    obtain ⟨m, h1, h2⟩ := exactDemo_product K hK
    exact h2 ▸ rep m h1

end BSQ
