import Verif.Props.ClosedForm
import Verif.Props.Monotone
import Verif.Spec.Bonus
/-!
# C114: further sources of bonuses never lower a queried stat
-/
namespace BSQ
open Contrib

/-! ### sums and products with further contributions -/

section
variable {A M B : Type}

private theorem total_append [AddMonoid A] (C X : List (Contrib A M B)) : total (C ++ X) = total C + total X := by
  induction C with
  | nil => simp [total]
  | cons c C ih => cases c <;> simp [total, ih, add_assoc]

private theorem product_append [Monoid M] (C X : List (Contrib A M B)) : product (C ++ X) = product C * product X := by
  induction C with
  | nil => simp [product]
  | cons c C ih => cases c <;> simp [product, ih, mul_assoc]

private theorem multSum_append [AddMonoid M] (C X : List (Contrib A M B)) :
    multSum (C ++ X) = multSum C + multSum X := by
  induction C with
  | nil => simp [multSum]
  | cons c C ih => cases c <;> simp [multSum, ih, add_assoc]

private theorem floorOf_append_le [LinearOrder B] (lo : B) (C X : List (Contrib A M B)) :
    floorOf lo C ≤ floorOf lo (C ++ X) := by
  induction C with
  | nil =>
    induction X with
    | nil => exact le_rfl
    | cons c X ih => exact ih.trans (floorOf_le_cons _ _ _)
  | cons c C ih =>
    cases c with
    | atLeast b => exact max_le_max le_rfl ih
    | add _ => exact ih
    | mul _ => exact ih
    | atMost _ => exact ih

private theorem capOf_append [LinearOrder B] [Zero A] [LE A] [LE M] {one : M} (hi : B) (C X : List (Contrib A M B))
    (hX : ∀ c ∈ X, c.Raises one) : capOf hi (C ++ X) = capOf hi C := by
  induction C with
  | nil =>
    induction X with
    | nil => rfl
    | cons c X ih =>
      have := ih fun c h => hX c (by simp [h])
      have h := hX c (by simp)
      cases c <;> simp [capOf, Raises] at this h ⊢ <;> exact this
  | cons c C ih => cases c <;> simp [capOf, ih]

private theorem total_raises [AddCommGroup A] [LinearOrder A] [IsOrderedAddMonoid A] [LE M] {one : M}
    (X : List (Contrib A M B)) (hX : ∀ c ∈ X, c.Raises one) : 0 ≤ total X := by
  induction X with
  | nil => exact le_rfl
  | cons c X ih =>
    have := ih fun c h => hX c (by simp [h])
    have h := hX c (by simp)
    cases c <;> simp only [total] <;> first | exact add_nonneg h this | exact this

private theorem product_raises [Zero A] [LE A] [CommRing M] [LinearOrder M] [IsStrictOrderedRing M]
    (X : List (Contrib A M B)) (hX : ∀ c ∈ X, c.Raises 1) : 1 ≤ product X := by
  induction X with
  | nil => exact le_rfl
  | cons c X ih =>
    have := ih fun c h => hX c (by simp [h])
    have h := hX c (by simp)
    cases c <;> simp only [product] <;> first | exact one_le_mul_of_one_le_of_one_le h this | exact this

private theorem multSum_raises [Zero A] [LE A] [AddCommGroup M] [LinearOrder M] [IsOrderedAddMonoid M]
    (X : List (Contrib A M B)) (hX : ∀ c ∈ X, c.Raises 0) : 0 ≤ multSum X := by
  induction X with
  | nil => exact le_rfl
  | cons c X ih =>
    have := ih fun c h => hX c (by simp [h])
    have h := hX c (by simp)
    cases c <;> simp only [multSum] <;> first | exact add_nonneg h this | exact this
end

private theorem mul_grows {a b x y : ℚ} (ha : 0 ≤ a) (hb : 0 ≤ b) (hx : 0 ≤ x) (hy : 1 ≤ y) :
    a * b ≤ (a + x) * (b * y) := by
  have h1 : b ≤ b * y := le_mul_of_one_le_right hb hy
  exact mul_le_mul (by linarith) h1 hb (by linarith)

private theorem mapRaises {α A M B : Type} [Zero A] [LE A] [LE M] {one : M} {f : α → Contrib A M B} {X : List α}
    (h : ∀ o ∈ X, (f o).Raises one) : ∀ c ∈ X.map f, c.Raises one := by
  intro c hc
  obtain ⟨o, ho, rfl⟩ := List.mem_map.1 hc
  exact h o ho

/-! ### the types -/

/-- C114: `StatInt` whose addends sum up, and multipliers multiply, to something non-negative -/
theorem C114_int (t : NumTy) : Grows (statInt.Value t) (fun a b : ℤ => a ≤ b)
    (fun L => 0 ≤ total (L.map statInt.contrib) ∧ 0 ≤ product (L.map statInt.contrib))
    (fun o => (statInt.contrib o).Raises 1) := by
  intro L X out out' ⟨h1, h2⟩ hX h h'
  have hX' := mapRaises hX
  unfold statInt.Value at h h'
  simp only [List.map_append] at h'
  rw [capOf_append _ _ _ hX', total_append, product_append] at h'
  rw [h, h']
  refine clampTo_mono ?_ (floorOf_append_le _ _ _) le_rfl
  have := mul_grows (Int.cast_nonneg h1) (Int.cast_nonneg h2) (Int.cast_nonneg (total_raises _ hX'))
    (by exact_mod_cast product_raises _ hX' : (1 : ℚ) ≤ (product (X.map statInt.contrib) : ℤ))
  exact_mod_cast this

/-- C114: `StatIntFraction` in each rounding mode -/
theorem C114_fraction (t : NumTy) (R : Rounding) : Grows (D := statIntFraction t R) (statIntFraction.Value t)
    (fun a b : ℤ => a ≤ b)
    (fun L => 0 ≤ total (L.map statIntFraction.contrib) ∧ 0 ≤ product (L.map statIntFraction.contrib))
    (fun o => (statIntFraction.contrib o).Raises 1) := by
  rintro L X out out' ⟨h1, h2⟩ hX ⟨z, hz, h⟩ ⟨z', hz', h'⟩
  have hX' := mapRaises hX
  simp only [List.map_append] at hz' h'
  rw [capOf_append _ _ _ hX'] at h'
  rw [total_append, product_append] at hz'
  rw [h, h']
  refine clampTo_mono (Frac.rounds_mono R ?_ hz hz') (floorOf_append_le _ _ _) le_rfl
  rw [Int.cast_add]
  exact mul_grows (Int.cast_nonneg h1) h2 (Int.cast_nonneg (total_raises _ hX')) (product_raises _ hX')

/-- C114: `StatIntPercentAdditive` in each rounding mode, for each positive scale -/
theorem C114_percent_additive (t : NumTy) (R : Rounding) (S : ℤ) (hS : 0 < S) :
    Grows (D := statIntPercentAdditive t R S) (statIntPercentAdditive.Value t) (fun a b : ℤ => a ≤ b)
    (fun L => 0 ≤ total (L.map statIntPercentAdditive.contrib) ∧
      0 ≤ S + multSum (L.map statIntPercentAdditive.contrib))
    (fun o => (statIntPercentAdditive.contrib o).Raises 0) := by
  rintro L X out out' ⟨h1, h2⟩ hX ⟨z, hz, h⟩ ⟨z', hz', h'⟩
  have hX' := mapRaises hX
  simp only [List.map_append] at hz' h'
  rw [capOf_append _ _ _ hX'] at h'
  rw [total_append, multSum_append] at hz'
  rw [h, h']
  refine clampTo_mono (Frac.rounds_mono R ?_ hz hz') (floorOf_append_le _ _ _) le_rfl
  refine div_le_div_of_nonneg_right ?_ (Int.cast_nonneg hS.le)
  have e1 := total_raises _ hX'
  have e2 := multSum_raises _ hX'
  exact_mod_cast mul_le_mul (by omega : total (L.map statIntPercentAdditive.contrib) ≤
    total (L.map statIntPercentAdditive.contrib) + total (X.map statIntPercentAdditive.contrib))
    (by omega : S + multSum (L.map statIntPercentAdditive.contrib) ≤
    S + (multSum (L.map statIntPercentAdditive.contrib) + multSum (X.map statIntPercentAdditive.contrib))) h2 (by omega)

/-- C114: `StatFloat<Fraction>` -/
theorem C114_float_frac (t : NumTy) : Grows (D := statFloat (Frac.ops t)) (statFloat.FracValue t)
    (fun a b : Frac => a.toRat ≤ b.toRat)
    (fun L => 0 ≤ total (L.map statFloat.fracContrib) ∧ 0 ≤ product (L.map statFloat.fracContrib))
    (fun o => (statFloat.fracContrib o).Raises 1) := by
  intro L X out out' ⟨h1, h2⟩ hX h h'
  have hX' := mapRaises hX
  unfold statFloat.FracValue at h h'
  simp only [List.map_append] at h'
  rw [capOf_append _ _ _ hX', total_append, product_append] at h'
  change out.toRat ≤ out'.toRat
  rw [h, h']
  exact clampTo_mono (mul_grows h1 h2 (total_raises _ hX') (product_raises _ hX')) (floorOf_append_le _ _ _) le_rfl

/-- C114: `StatFloatAdditive<Fraction>` -/
theorem C114_additive_frac (t : NumTy) : Grows (D := statFloatAdditive (Frac.ops t)) (statFloatAdditive.FracValue t)
    (fun a b : Frac => a.toRat ≤ b.toRat)
    (fun L => 0 ≤ total (L.map statFloatAdditive.fracContrib) ∧
      0 ≤ 1 + multSum (L.map statFloatAdditive.fracContrib))
    (fun o => (statFloatAdditive.fracContrib o).Raises 0) := by
  intro L X out out' ⟨h1, h2⟩ hX h h'
  have hX' := mapRaises hX
  unfold statFloatAdditive.FracValue at h h'
  simp only [List.map_append] at h'
  rw [capOf_append _ _ _ hX', total_append, multSum_append] at h'
  change out.toRat ≤ out'.toRat
  rw [h, h']
  refine clampTo_mono ?_ (floorOf_append_le _ _ _) le_rfl
  have e1 := total_raises _ hX'
  have e2 := multSum_raises _ hX'
  exact mul_le_mul (by linarith) (by linarith) h2 (by linarith)

/-- C114: `StatMult<Fraction>` -/
theorem C114_mult_frac (t : NumTy) : Grows (D := statMult (Frac.ops t)) (statMult.FracValue t)
    (fun a b : Frac => a.toRat ≤ b.toRat) (fun L => 0 ≤ product (L.map statMult.fracContrib))
    (fun o => (statMult.fracContrib o).Raises 1) := by
  intro L X out out' h2 hX h h'
  have hX' := mapRaises hX
  unfold statMult.FracValue at h h'
  simp only [List.map_append] at h'
  rw [capOf_append _ _ _ hX', product_append] at h'
  change out.toRat ≤ out'.toRat
  rw [h, h']
  exact clampTo_mono (le_mul_of_one_le_right h2 (product_raises _ hX')) (floorOf_append_le _ _ _) le_rfl

/-- C114: `StatFlags`: with more sources that clear nothing, no flag is lost -/
theorem C114_flags (T : Type) [BitXorFlags T] [FlagSetXor T] : Grows (D := statFlags T) (statFlags.Value T)
    (fun a b : T => ∀ f, FlagSet.has a f → FlagSet.has b f) (fun _ => True)
    (fun o => ∀ f : FlagSet.Flag T, ¬ o.Clears f) := by
  intro L X out out' _ hX h h' f hf
  obtain ⟨⟨o, ho, h1⟩, h2⟩ := (h f).1 hf
  refine (h' f).2 ⟨⟨o, List.mem_append_left _ ho, h1⟩, ?_⟩
  rintro ⟨o, ho, h3⟩
  rcases List.mem_append.1 ho with ho | ho
  · exact h2 ⟨o, ho, h3⟩
  · exact hX o ho f h3

/-- C114: `StatExists`: nothing makes it false again -/
theorem C114_exists : Grows statExists.Value (fun a b : Bool => a = true → b = true) (fun _ => True)
    (fun _ => True) := by
  intro L X out out' _ _ h h' hf
  obtain ⟨o, ho, h1⟩ := h.1 hf
  exact h'.2 ⟨o, List.mem_append_left _ ho, h1⟩

/-! ### queries -/

section
variable {E : Env} {Q Ent V : Type} {D : StatValue V} {okOp : StatOp D → Prop} {Fits : List (StatOp D) → Prop}
  {Value : List (StatOp D) → D.Out → Prop} {le : D.Out → D.Out → Prop} {Keep : List (StatOp D) → Prop}
  {Bonus : StatOp D → Prop} (hC : ClosedForm D okOp Fits Value) (hG : Grows Value le Keep Bonus)
  (A : Addr E) (J J' : Joined E Q Ent) (n n' : Nat) (q q' : QualifierQuery Q) (s : StatInst E) (hD : s.Is D)
  (ops ops' X : List (StatOp s.sv)) (hp : ops'.Perm (ops ++ X)) (hk : Keep (asOps hD ops))
  (hX : ∀ o ∈ X, Bonus (asOp hD o))
include hC hG hp hk hX

private theorem Grows.gathered {out out' : s.sv.Out} (h : Value (asOps hD ops) (asOut hD out))
    (h' : Value (asOps hD ops') (asOut hD out')) : le (asOut hD out) (asOut hD out') := by
  have key : ∀ (Y : (V : Type) × StatValue V) (hD : Y = ⟨V, D⟩) (ops ops' X : List (StatOp Y.2)),
      ops'.Perm (ops ++ X) → Keep (asOps hD ops) → (∀ o ∈ X, Bonus (asOp hD o)) → ∀ out out' : Y.2.Out,
      Value (asOps hD ops) (asOut hD out) → Value (asOps hD ops') (asOut hD out') →
      le (asOut hD out) (asOut hD out') := by
    rintro _ rfl ops ops' X hp hk hX out out' h h'
    exact hG ops X out out' hk hX h (hC.perm _ _ _ hp h')
  exact key _ hD ops ops' X hp hk hX out out' h h'

/-- C114: if a query gathers the operations `ops` and another one about the same stat (in a changed world, say, or
through a querier that joins further streams, or on another entity) gathers these and `X` besides, from whatever
sources and in whatever order, then both return, and if all of `X` are bonuses the second evaluates to no less. -/
theorem C114_query (e e' : Ent) (he : J.world.isStat e = true) (he' : J'.world.isStat e' = true)
    (h : J.Gathers A n s (fun o => okOp (asOp hD o)) (fun L => Fits (asOps hD L)) (J.statCalls e q) ops)
    (h' : J'.Gathers A n' s (fun o => okOp (asOp hD o)) (fun L => Fits (asOps hD L)) (J'.statCalls e' q') ops') :
    ∃ v v' out out', J.answer A (n + 1) (.stat e q s) = .ok (some v) ∧
      J'.answer A (n' + 1) (.stat e' q' s) = .ok (some v') ∧ s.sv.eval v = .ok out ∧ s.sv.eval v' = .ok out' ∧
      le (asOut hD out) (asOut hD out') := by
  obtain ⟨hs, v0, L, Cs, opss, hv0, hL, ho, hS, rfl⟩ := h
  obtain ⟨-, v0', L', Cs', opss', hv0', hL', ho', hS', rfl⟩ := h'
  obtain ⟨v, out, h1, h2, h3⟩ := C112_query hC n q s hD v0 L Cs hs hv0 hL opss ho e he hS
  obtain ⟨v', out', h1', h2', h3'⟩ := C112_query hC n' q' s hD v0' L' Cs' hs hv0' hL' opss' ho' e' he' hS'
  exact ⟨v, v', out, out', h1, h1', h2, h2', hG.gathered hC s hD _ _ X hp hk hX h3 h3'⟩

/-- C114 for relation queries -/
theorem C114_relation (a b a' b' : Ent) (ha : J.world.isStat a = true) (hb : J.world.isStat b = true)
    (ha' : J'.world.isStat a' = true) (hb' : J'.world.isStat b' = true)
    (h : J.Gathers A n s (fun o => okOp (asOp hD o)) (fun L => Fits (asOps hD L)) (J.relationCalls a b q) ops)
    (h' : J'.Gathers A n' s (fun o => okOp (asOp hD o)) (fun L => Fits (asOps hD L))
      (J'.relationCalls a' b' q') ops') :
    ∃ v v' out out', J.answer A (n + 1) (.relation a b q s) = .ok (some v) ∧
      J'.answer A (n' + 1) (.relation a' b' q' s) = .ok (some v') ∧ s.sv.eval v = .ok out ∧
      s.sv.eval v' = .ok out' ∧ le (asOut hD out) (asOut hD out') := by
  obtain ⟨hs, v0, L, Cs, opss, hv0, hL, ho, hS, rfl⟩ := h
  obtain ⟨-, v0', L', Cs', opss', hv0', hL', ho', hS', rfl⟩ := h'
  obtain ⟨v, out, h1, h2, h3⟩ := C112_relation hC n q s hD v0 L Cs hs hv0 hL opss ho a b ha hb hS
  obtain ⟨v', out', h1', h2', h3'⟩ := C112_relation hC n' q' s hD v0' L' Cs' hs hv0' hL' opss' ho' a' b' ha' hb' hS'
  exact ⟨v, v', out, out', h1, h1', h2, h2', hG.gathered hC s hD _ _ X hp hk hX h3 h3'⟩
end

/-! ### the hypotheses can be met -/

section
variable {V : Type} {D : StatValue V} {okOp : StatOp D → Prop} {Fits : List (StatOp D) → Prop}
  {Value : List (StatOp D) → D.Out → Prop}

theorem soloOps_gathers (hC : ClosedForm D okOp Fits Value) (os os' : List (StatOp D))
    (hb : ∀ o ∈ os ++ os', ¬ o.IsBase) (hok : ∀ o ∈ os ++ os', okOp o) (hf : Fits (os ++ os')) (a b n : Nat) :
    (soloOps os os').Gathers (soloAddr D) n (soloStat D) okOp Fits ((soloOps os os').relationCalls a b demoQ)
      (os ++ os') := by
  refine ⟨show Storable ⟨16, 8⟩ by decide, D.default, [], (os ++ os').map fun o => .ret [o],
    (os ++ os').map fun o => [o], ?_, ⟨.dflt, trivial, by simp [Tree.leaves], .refl _, rfl⟩, ?_, ?_, ?_⟩
  · rw [World.startValue, World.registered, soloOps_world]; rfl
  · clear hb hok hf
    induction os ++ os' with
    | nil => exact .nil
    | cons o l ih => exact .cons rfl ih
  · rw [soloOps_calls]
    exact soloOps_supplied hC _ _ hb hok hf
  · rw [← List.flatMap_def]; exact (List.flatMap_singleton' _).symm
end

/-- C114: another relation stream that adds 5 and doubles never lowers a `StatInt<i32>` of 3 -/
example (a b n : Nat) : let D := statInt ⟨.i32, .prim, .debug⟩
    ∃ v v' out out', (soloOps (D := D) [.add (3 : Int)] []).answer (soloAddr D) (n + 1)
        (.relation a b demoQ (soloStat D)) = .ok (some v) ∧
      (soloOps (D := D) [.add (3 : Int)] [.add (5 : Int), .mul (2 : Int)]).answer (soloAddr D) (n + 1)
        (.relation a b demoQ (soloStat D)) = .ok (some v') ∧
      D.eval v = .ok out ∧ D.eval v' = .ok out' ∧ (out : Int) ≤ out' := by
  intro D
  have hC := C112_closed_int ⟨.i32, .prim, .debug⟩ rfl
  have h1 := soloOps_gathers hC [.add (3 : Int)] [] (by simp [StatOp.IsBase]) (by decide)
    (by unfold statInt.Fits; decide) a b n
  have h2 := soloOps_gathers hC [.add (3 : Int)] [.add (5 : Int), .mul (2 : Int)] (by simp [StatOp.IsBase])
    (by decide) (by unfold statInt.Fits; decide) a b n
  exact C114_relation hC (C114_int _) (soloAddr D) _ _ n n demoQ demoQ (soloStat D) rfl _ _ _ (.refl _)
    (by decide) (by
      intro o ho
      simp only [List.mem_cons, List.not_mem_nil, or_false] at ho
      rcases ho with rfl | rfl
      · exact (by decide : (0 : ℤ) ≤ 5)
      · exact (by decide : (1 : ℤ) ≤ 2)) a b a b (by rw [soloOps_world]; rfl) (by rw [soloOps_world]; rfl)
    (by rw [soloOps_world]; rfl) (by rw [soloOps_world]; rfl) h1 h2

end BSQ
