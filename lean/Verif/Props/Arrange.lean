import Verif.Spec.Arrange
import Verif.Props.Undo
import Verif.Props.Assembled
import Verif.Props.ClosedForm
/-!
# C119: where a modifier is kept does not matter
-/
set_option linter.unusedSectionVars false
namespace BSQ
open Contrib
variable {E : Env} {Q Ent : Type} [BitFlags Q] [FlagSet Q] [Ord Q] [Std.TransOrd Q] [Std.LawfulEqOrd Q]
  {A : Addr E} {J J' : Joined E Q Ent} {own items own' items' : List (MapComp (Q := Q) A Ent)} {e e' : Ent}
  {q : QualifierQuery Q} {s : StatInst E}

theorem SameModifiers.symm (h : SameModifiers J own items e J' own' items' e' q s) :
    SameModifiers J' own' items' e' J own items e q s := by
  obtain ⟨Ls, Ls', h1, h2, h3⟩ := h
  exact ⟨Ls', Ls, h2, h1, h3.symm⟩

/-- C119, for every value type: where the modifiers are kept only decides the order in which they are joined. -/
theorem C119_values (h : OnlyMaps J own items) (h' : OnlyMaps J' own' items')
    (hm : SameModifiers J own items e J' own' items' e' q s) (hs : Storable (E.layout s.ty))
    (he : J.world.isStat e = true) (he' : J'.world.isStat e' = true) (v : s.Val)
    (hv : J.world.startValue A s = .ok (.val s.ty v)) (hv' : J'.world.startValue A s = .ok (.val s.ty v)) :
    ∃ l l' : List s.Val, l.Perm l' ∧
      (∀ n, J.answer A (n + 1) (.stat e q s) = (joinList s.sv v l >>= fun x => .ok (some x))) ∧
      ∀ n, J'.answer A (n + 1) (.stat e' q s) = (joinList s.sv v l' >>= fun x => .ok (some x)) := by
  obtain ⟨Ms, Ms', m1, m2, m3⟩ := hm
  obtain ⟨Ls, h1, -, h2⟩ := C86_exact h e q s hs he v hv
  obtain ⟨Ls', h1', -, h2'⟩ := C86_exact h' e' q s hs he' v hv'
  exact ⟨_, _, (((listed_perm h1 m1).trans m3).trans (listed_perm m2 h1')).map (·.2), h2, h2'⟩

/-- C119: if the one layout was assembled from some operations, so was the other. -/
theorem C119_assembled (hm : SameModifiers J own items e J' own' items' e' q s)
    (hv : J'.world.startValue A s = J.world.startValue A s) {V : Type} {D : StatValue V} {hD : s.Is D}
    {L : List (StatOp D)} (hL : AssembledFrom J own items e q s hD L) :
    ∃ L', L'.Perm L ∧ AssembledFrom J' own' items' e' q s hD L' := by
  obtain ⟨Ms, Ms', m1, m2, m3⟩ := hm
  obtain ⟨v, Ls, t₀, ts, h1, h2, h3, h4, h5, rfl⟩ := hL
  obtain ⟨ts', h6, h7⟩ := forall₂_perm ((listed_perm h2 m1).trans m3) h5
  exact ⟨_, (h7.symm.flatMap_right _).append_left _, v, Ms', t₀, ts', hv.trans h1, m2, h3, h4, h6, rfl⟩

/-- C119, for every shipped type: where operations fit together, both layouts answer, and what they answer evaluates
to the same value, as far as the type determines it. -/
theorem C119_same (h : OnlyMaps J own items) (h' : OnlyMaps J' own' items')
    (hm : SameModifiers J own items e J' own' items' e' q s) (hs : Storable (E.layout s.ty))
    (he : J.world.isStat e = true) (he' : J'.world.isStat e' = true)
    (hv : J'.world.startValue A s = J.world.startValue A s) {V : Type} {D : StatValue V} {hD : s.Is D}
    {okOp : StatOp D → Prop} {Fits : List (StatOp D) → Prop} {Value : List (StatOp D) → D.Out → Prop}
    (hC : ClosedForm D okOp Fits Value) {L : List (StatOp D)} (hL : AssembledFrom J own items e q s hD L)
    (hok : ∀ o ∈ L, okOp o) (hf : Fits L) :
    ∃ (w w' : s.Val) (out out' : s.sv.Out),
      (∀ n, J.answer A (n + 1) (.stat e q s) = .ok (some w)) ∧ s.sv.eval w = .ok out ∧
      (∀ n, J'.answer A (n + 1) (.stat e' q s) = .ok (some w')) ∧ s.sv.eval w' = .ok out' ∧
      Value L (asOut hD out) ∧ Value L (asOut hD out') := by
  obtain ⟨L', p, hL'⟩ := C119_assembled hm hv hL
  have key : ∀ t : Tree D, t.NoReset → t.leaves.Perm L → ∃ v out, t.run = .ok v ∧ D.eval v = .ok out ∧ Value L out := by
    intro t h1 h2
    obtain ⟨v, out, h3, h4, h5⟩ := hC.eval t h1 (fun o ho => hok o (h2.mem_iff.1 ho))
      (hC.hereditary L _ h2.subperm hf)
    exact ⟨v, out, h3, h4, hC.perm _ _ _ h2 h5⟩
  obtain ⟨w, out, a1, a2, a3⟩ := hL.closed h hs he (P := Value L) key
  obtain ⟨w', out', b1, b2, b3⟩ := hL'.closed h' hs he' (P := Value L) fun t h1 h2 => key t h1 (h2.trans p)
  exact ⟨w, w', out, out', a1, a2, b1, b2, a3, b3⟩

/-- the operations determine what they evaluate to -/
def Determined {V : Type} {D : StatValue V} (Value : List (StatOp D) → D.Out → Prop) : Prop :=
  ∀ L a b, Value L a → Value L b → a = b

/-- C119: the same value, where the operations determine it. -/
theorem C119_equal (h : OnlyMaps J own items) (h' : OnlyMaps J' own' items')
    (hm : SameModifiers J own items e J' own' items' e' q s) (hs : Storable (E.layout s.ty))
    (he : J.world.isStat e = true) (he' : J'.world.isStat e' = true)
    (hv : J'.world.startValue A s = J.world.startValue A s) {V : Type} {D : StatValue V} {hD : s.Is D}
    {okOp : StatOp D → Prop} {Fits : List (StatOp D) → Prop} {Value : List (StatOp D) → D.Out → Prop}
    (hC : ClosedForm D okOp Fits Value) (hd : Determined Value) {L : List (StatOp D)}
    (hL : AssembledFrom J own items e q s hD L) (hok : ∀ o ∈ L, okOp o) (hf : Fits L) :
    ∃ (w w' : s.Val) (out : s.sv.Out),
      (∀ n, J.answer A (n + 1) (.stat e q s) = .ok (some w)) ∧ s.sv.eval w = .ok out ∧
      (∀ n, J'.answer A (n + 1) (.stat e' q s) = .ok (some w')) ∧ s.sv.eval w' = .ok out := by
  obtain ⟨w, w', out, out', h1, h2, h3, h4, h5, h6⟩ := C119_same h h' hm hs he he' hv hC hL hok hf
  have : out = out' := by
    have := hd L _ _ h5 h6
    unfold asOut at this
    exact (cast_inj _).1 this
  subst this
  exact ⟨w, w', out, h1, h2, h3, h4⟩

/-- rounding gives one integer -/
theorem Rounds.unique {R : Rounding} {x : ℚ} {z y : ℤ} (h : Rounds R x z) (h' : Rounds R x y) : z = y := by
  have close : ∀ a b : ℤ, (a : ℚ) < b + 1 → (b : ℚ) < a + 1 → a = b := by
    intro a b h1 h2
    have h1 : a < b + 1 := by exact_mod_cast h1
    have h2 : b < a + 1 := by exact_mod_cast h2
    omega
  cases R with
  | truncate =>
    obtain ⟨a1, a2, a3⟩ := h
    obtain ⟨b1, b2, b3⟩ := h'
    have : |z| = |y| := close _ _ (by push_cast; linarith) (by push_cast; linarith)
    rcases abs_eq_abs.1 this with h | h
    · exact h
    · subst h
      push_cast at a1 a3
      have : (y : ℚ) * x = 0 := by linarith
      rcases mul_eq_zero.1 this with h | h
      · have : y = 0 := by exact_mod_cast h
        omega
      · subst h
        have : (y : ℚ) = 0 := by simpa using a1
        have : y = 0 := by exact_mod_cast this
        omega
  | floor => exact close _ _ (by linarith [h.1, h'.2]) (by linarith [h.2, h'.1])
  | ceil => exact close _ _ (by linarith [h.1, h'.2]) (by linarith [h.2, h'.1])
  | round =>
    obtain ⟨a1, a2⟩ := h
    obtain ⟨b1, b2⟩ := h'
    have key : ∀ a b : ℤ, |x - a| ≤ 1 / 2 → (|x - a| = 1 / 2 → |x| < |(a : ℚ)|) → |x - b| ≤ 1 / 2 →
        (|x - b| = 1 / 2 → |x| < |(b : ℚ)|) → ¬ a < b := by
      intro a b a1 a2 b1 b2 hab
      have hab' : (a : ℚ) + 1 ≤ b := by exact_mod_cast hab
      obtain ⟨a3, a4⟩ := abs_le.1 a1
      obtain ⟨b3, b4⟩ := abs_le.1 b1
      have hx : x = a + 1 / 2 := by linarith
      have hb : (b : ℚ) = a + 1 := by linarith
      have c1 := a2 (by rw [hx]; norm_num)
      have c2 := b2 (by rw [hx, hb]; norm_num [abs_of_nonpos])
      rw [hb] at c2
      rw [hx] at c1 c2
      rcases lt_or_ge a 0 with h0 | h0
      · have : (a : ℚ) + 1 ≤ 0 := by exact_mod_cast h0
        rw [abs_of_nonpos (by linarith), abs_of_nonpos this] at c2
        linarith
      · have : (0 : ℚ) ≤ a := by exact_mod_cast h0
        rw [abs_of_nonneg (by linarith), abs_of_nonneg this] at c1
        linarith
    have := key z y a1 a2 b1 b2
    have := key y z b1 b2 a1 a2
    omega
  | truncateSigned =>
    obtain ⟨a1, a2, a3⟩ := h
    obtain ⟨b1, b2, b3⟩ := h'
    rcases lt_trichotomy x 0 with hx | hx | hx
    · obtain ⟨-, c1, c2⟩ := a3 hx
      obtain ⟨-, d1, d2⟩ := b3 hx
      by_cases h1 : -1 < x
      · rw [c1 h1, d1 h1]
      · obtain ⟨c3, c4⟩ := c2 (not_lt.1 h1)
        obtain ⟨d3, d4⟩ := d2 (not_lt.1 h1)
        exact close _ _ (by linarith) (by linarith)
    · rw [a1 hx, b1 hx]
    · obtain ⟨-, c1, c2⟩ := a2 hx
      obtain ⟨-, d1, d2⟩ := b2 hx
      by_cases h1 : x < 1
      · rw [c1 h1, d1 h1]
      · obtain ⟨c3, c4⟩ := c2 (not_lt.1 h1)
        obtain ⟨d3, d4⟩ := d2 (not_lt.1 h1)
        exact close _ _ (by linarith) (by linarith)

/-- C119: the integer types, flags, `StatExists` and `StatOnce` determine their values. -/
theorem C119_determined (t : NumTy) (R : Rounding) (S : Int) (T : Type) [BitXorFlags T] [FlagSetXor T] (U : Type) :
    Determined (statInt.Value t) ∧ Determined (statInt.WrapValue t) ∧
    Determined (statIntPercentAdditive.Value t (R := R) (S := S)) ∧ Determined (statIntFraction.Value t (R := R)) ∧
    Determined (statFlags.Value T) ∧ Determined statExists.Value ∧ Determined (statOnce.Value U) := by
  refine ⟨fun L a b h h' => h.trans h'.symm, fun L a b h h' => h.trans h'.symm, ?_, ?_,
    fun L a b h h' => FlagSet.ext fun f => (h f).trans (h' f).symm, ?_, fun L a b h h' => h.trans h'.symm⟩
  · rintro L a b ⟨z, hz, rfl⟩ ⟨y, hy, rfl⟩
    rw [hz.unique hy]
  · rintro L a b ⟨z, hz, rfl⟩ ⟨y, hy, rfl⟩
    rw [hz.unique hy]
  · intro L a b h h'
    exact Bool.eq_iff_iff.2 (Iff.trans h (Iff.symm h'))

/-- C119: fractions may be written differently, but are the same number. -/
theorem C119_determined_frac (t : NumTy) :
    (∀ L a b, statFloat.FracValue t L a → statFloat.FracValue t L b → a.toRat = b.toRat) ∧
    (∀ L a b, statFloatAdditive.FracValue t L a → statFloatAdditive.FracValue t L b → a.toRat = b.toRat) ∧
    ∀ L a b, statMult.FracValue t L a → statMult.FracValue t L b → a.toRat = b.toRat :=
  ⟨fun _ _ _ h h' => h.trans h'.symm, fun _ _ _ h h' => h.trans h'.symm, fun _ _ _ h h' => h.trans h'.symm⟩

/-- C119: floats differ by no more than twice the accumulated rounding error. -/
theorem C119_determined_float (f : Fmt) (L : List (StatOp (statFloat (Fl.ops f)))) (a b : Fl)
    (ha : statFloat.FlValue f L a) (hb : statFloat.FlValue f L b) :
    ∃ x y, a = .fin x ∧ b = .fin y ∧ let C := L.map statFloat.qContrib
      |x - y| ≤ 2 * ((f.growth ((addends C).length + (mults C).length) - 1) * (absSum (addends C) * |product C|) +
        f.tiny) := by
  obtain ⟨x, rfl, hx⟩ := ha
  obtain ⟨y, rfl, hy⟩ := hb
  refine ⟨x, y, rfl, rfl, ?_⟩
  rw [abs_sub_comm] at hy
  have := abs_sub_le x (clampTo (total (L.map statFloat.qContrib) * product (L.map statFloat.qContrib))
    (floorOf (-f.maxVal) (L.map statFloat.qContrib)) (capOf f.maxVal (L.map statFloat.qContrib))) y
  dsimp only
  linarith

theorem C119_determined_additive (f : Fmt) (L : List (StatOp (statFloatAdditive (Fl.ops f)))) (a b : Fl)
    (ha : statFloatAdditive.FlValue f L a) (hb : statFloatAdditive.FlValue f L b) :
    ∃ x y, a = .fin x ∧ b = .fin y ∧ let C := L.map statFloatAdditive.qContrib
      |x - y| ≤ 2 * ((f.growth ((addends C).length + (mults C).length + 1) - 1) *
        (absSum (addends C) * (absSum (mults C) + 1)) + f.tiny) := by
  obtain ⟨x, rfl, hx⟩ := ha
  obtain ⟨y, rfl, hy⟩ := hb
  refine ⟨x, y, rfl, rfl, ?_⟩
  rw [abs_sub_comm] at hy
  exact (abs_sub_le _ _ _).trans ((add_le_add hx hy).trans_eq (two_mul _).symm)

theorem C119_determined_mult (f : Fmt) (L : List (StatOp (statMult (Fl.ops f)))) (a b : Fl)
    (ha : statMult.FlValue f L a) (hb : statMult.FlValue f L b) :
    ∃ x y, a = .fin x ∧ b = .fin y ∧ let C := L.map statMult.qContrib
      |x - y| ≤ 2 * ((f.growth ((mults C).length - 1) - 1) * |product C|) := by
  obtain ⟨x, rfl, hx⟩ := ha
  obtain ⟨y, rfl, hy⟩ := hb
  refine ⟨x, y, rfl, rfl, ?_⟩
  rw [abs_sub_comm] at hy
  exact (abs_sub_le _ _ _).trans ((add_le_add hx hy).trans_eq (two_mul _).symm)

theorem C119_determined_int_float (t : NumTy) (f : Fmt) {O : FloatOps Fl} {toF : Int → Fl} {ofF : Fl → Int}
    {R : Rounding} (L : List (StatOp (statIntFloatMul t O toF ofF R))) (a b : ℤ)
    (ha : statIntFloatMul.FlValue t f L a) (hb : statIntFloatMul.FlValue t f L b) :
    let C := L.map statIntFloatMul.contrib
    let T : ℚ := (total C : ℤ)
    |(a : ℚ) - b| ≤ 2 * ((f.growth ((mults C).length + 2) - 1) * (|T| * |product C|) + f.tiny + 1) := by
  unfold statIntFloatMul.FlValue at ha hb
  dsimp only at ha hb ⊢
  rw [abs_sub_comm] at hb
  exact (abs_sub_le _ _ _).trans ((add_le_add ha hb).trans_eq (two_mul _).symm)

/-- C119, for types whose operations commute: whenever both layouts answer, they give the same value, in all its
parts and whatever the size of the operands. -/
theorem C119_unordered (h : OnlyMaps J own items) (h' : OnlyMaps J' own' items')
    (hm : SameModifiers J own items e J' own' items' e' q s) (hs : Storable (E.layout s.ty))
    (he : J.world.isStat e = true) (he' : J'.world.isStat e' = true)
    (hv : J'.world.startValue A s = J.world.startValue A s)
    {okOp : StatOp s.sv → Prop} (hU : Unordered s.sv okOp) {L : List (StatOp s.sv)}
    (hL : AssembledFrom J own items e q s rfl L) (hok : ∀ o ∈ L, okOp o) (n n' : Nat) (w w' : s.Val)
    (hw : J.answer A (n + 1) (.stat e q s) = .ok (some w))
    (hw' : J'.answer A (n' + 1) (.stat e' q s) = .ok (some w')) : w = w' := by
  obtain ⟨Ms, Ms', m1, m2, m3⟩ := hm
  obtain ⟨v, Ls, t₀, ts, h1, h2, h3, h4, h5, rfl⟩ := hL
  obtain ⟨Ns, n1, -, n2⟩ := C86_exact h e q s hs he v h1
  obtain ⟨Ns', n1', -, n2'⟩ := C86_exact h' e' q s hs he' v (hv.trans h1)
  obtain ⟨us, u1, u2⟩ := forall₂_perm (listed_perm h2 n1) h5
  obtain ⟨us', u1', u2'⟩ := forall₂_perm (((listed_perm h2 m1).trans m3).trans (listed_perm m2 n1')) h5
  have noReset : ∀ {l : List (Qualifier Q × s.Val)} {us : List (Tree s.sv)},
      List.Forall₂ (fun x t => Tree.NoReset t ∧ t.run = .ok x.2) l us → ∀ t ∈ us, t.NoReset := by
    intro l us hu
    induction hu with
    | nil => intro t ht; cases ht
    | cons hx _ ih => exact List.forall_mem_cons.2 ⟨hx.1, ih⟩
  have leaves : ∀ {us : List (Tree s.sv)}, ts.Perm us →
      ((us.foldl Tree.join t₀).leaves).Perm (t₀.leaves ++ ts.flatMap Tree.leaves) := by
    intro us hp
    rw [Tree.foldl_join_leaves]
    exact (hp.symm.flatMap_right _).append_left _
  have runs : ∀ {l : List (Qualifier Q × s.Val)} {us : List (Tree s.sv)} {w : s.Val},
      List.Forall₂ (fun x t => Tree.NoReset t ∧ t.run = .ok x.2) l us →
      (joinList s.sv v (l.map (·.2)) >>= fun x => .ok (some x)) = .ok (some w) →
      (us.foldl Tree.join t₀).run = .ok w := by
    intro l us w hu hw
    rw [Tree.foldl_join_run (fun x : Qualifier Q × s.Val => x.2) _ _ _ v h4 hu]
    obtain ⟨x, hx, hx'⟩ := Res.bind_eq_ok.1 hw
    cases hx'
    exact hx
  refine hU _ _ w w' (Tree.foldl_join_noReset us t₀ h3 (noReset u1)) (Tree.foldl_join_noReset us' t₀ h3 (noReset u1'))
    (fun o ho => hok o ((leaves u2).mem_iff.1 ho)) ((leaves u2).trans (leaves u2').symm)
    (runs u1 ?_) (runs u1' ?_)
  · exact (n2 n).symm.trans hw
  · exact (n2' n').symm.trans hw'

/-! ### splitting a map -/

section Split
variable {h : List (MapOp E Q)}

theorem PMap.run_unused (g : List (MapOp E Q)) {a a' : PMap E Q} (k : Key E Q) (hk : a k = none)
    (ho : ∀ o ∈ g, o.key ≠ some k) (ha : a.runFrom g = .ok a') : a' k = none := by
  induction g generalizing a with
  | nil => cases ha; exact hk
  | cons o g ih =>
    obtain ⟨a₁, h1, ha⟩ := Res.bind_eq_ok.1 ha
    exact ih (step_unused o k hk (ho o (by simp)) h1) (fun o h => ho o (by simp [h])) ha

/-- the part `i` of the calls leaves the part `i` of the map -/
theorem PMap.run_callsTo (route : Key E Q → Nat) (i : Nat) {a : PMap E Q} (ha : PMap.run h = .ok a) :
    ∃ b, PMap.run (callsTo route i h) = .ok b ∧ ∀ k, b k = if route k = i then a k else none := by
  let K := (h.filterMap MapOp.key).filter fun k => decide (route k ≠ i)
  have hK : ∀ k, k ∈ K ↔ (∃ o ∈ h, o.key = some k) ∧ route k ≠ i := by
    intro k; simp [K]
  have hw : without K h = callsTo route i h := by
    unfold without callsTo
    refine List.filter_congr fun o ho => ?_
    cases hk : o.key with
    | none => rfl
    | some k =>
      have : k ∉ K ↔ route k = i := by
        rw [hK]
        constructor
        · intro h'; by_contra hc; exact h' ⟨⟨o, ho, hk⟩, hc⟩
        · intro h' hc; exact hc.2 h'
      simp only [this]
      by_cases hr : route k = i <;> simp [hr]
  obtain ⟨b, h1, h2, h3⟩ := runs_without (K := K) h (a := PMap.empty) (b := PMap.empty) (fun _ _ => rfl)
    (fun _ _ => rfl) ha
  rw [hw] at h1
  refine ⟨b, h1, fun k => ?_⟩
  by_cases hr : route k = i
  · rw [if_pos hr, h2 k (fun hc => ((hK k).1 hc).2 hr)]
  · rw [if_neg hr]
    by_cases hk : k ∈ K
    · exact h3 k hk
    · rw [← h2 k hk]
      refine PMap.run_unused h k rfl (fun o ho hok => hk ((hK k).2 ⟨⟨o, ho, hok⟩, hr⟩)) ha

/-- C119: calls that could be made on one map can be made on its parts. -/
theorem C119_parts_return {m : StatMap E Q} (hm : StatMap.run A h = .ok m) {parts : List (List (MapOp E Q))}
    (hp : SplitInto h parts) : ∀ p ∈ parts, ∃ m', StatMap.run A p = .ok m' := by
  obtain ⟨n, route, -, rfl⟩ := hp
  intro p hp
  obtain ⟨i, -, rfl⟩ := List.mem_map.1 hp
  obtain ⟨a, ha, -⟩ := reachRep A hm
  obtain ⟨b, hb, -⟩ := PMap.run_callsTo route i ha
  have := Rep.run (A := A) (callsTo route i h)
  rw [hb] at this
  cases hr : StatMap.run A (callsTo route i h) with
  | ok m' => exact ⟨m', rfl⟩
  | error x => rw [hr] at this; exact this.elim

/-- what a history leaves for a stat and a query, listed -/
private structure Left (q : QualifierQuery Q) (s : StatInst E) (h : List (MapOp E Q)) (L : List (Qualifier Q × s.Val)) :
    Prop where
  once : (L.map (·.1)).Nodup
  mem : ∀ k v, (k, v) ∈ L ↔ ∃ a, PMap.run h = .ok a ∧ a ⟨s, k⟩ = some v ∧ FlagSpec.Matches k q

private theorem left_of_places {l : List ((Ent → Option (List (MapOp E Q))) × Ent)}
    {Ls : List (List (Qualifier Q × s.Val))}
    (hr : ∀ h ∈ l.filterMap (fun p => p.1 p.2), ∃ m, StatMap.run A h = .ok m)
    (hL : List.Forall₂ (MatchesAt q s) (l.map fun x => (MapComp.ofOps (A := A) x.1, x.2)) Ls) :
    ∃ Ms, List.Forall₂ (Left q s) (l.filterMap fun p => p.1 p.2) Ms ∧ Ls.flatten = Ms.flatten := by
  induction l generalizing Ls with
  | nil => cases hL; exact ⟨[], .nil, rfl⟩
  | cons x l ih =>
    rw [List.map_cons] at hL
    cases hL with
    | cons hx hL =>
      rename_i M Ls
      cases hc : x.1 x.2 with
      | none =>
        rw [List.filterMap_cons_none (f := fun p : (Ent → Option (List (MapOp E Q))) × Ent => p.1 p.2) hc] at hr ⊢
        obtain ⟨Ms, h1, h2⟩ := ih hr hL
        refine ⟨Ms, h1, ?_⟩
        have : M = [] := List.eq_nil_iff_forall_not_mem.2 fun y hy => by
          have := ((hx.mem y.1 y.2).1 hy).1
          simp [MapComp.ofOps, hc] at this
        rw [List.flatten_cons, this, h2]; rfl
      | some h =>
        rw [List.filterMap_cons_some (f := fun p : (Ent → Option (List (MapOp E Q))) × Ent => p.1 p.2) hc] at hr ⊢
        obtain ⟨Ms, h1, h2⟩ := ih (fun h' hh => hr h' (by simp [hh])) hL
        obtain ⟨m, hm⟩ := hr h (by simp)
        obtain ⟨a, ha, -⟩ := reachRep A hm
        refine ⟨M :: Ms, .cons ⟨hx.once, fun k v => ?_⟩ h1, by rw [List.flatten_cons, h2]; rfl⟩
        rw [hx.mem]
        simp [MapComp.ofOps, hc, hm, ha, Except.toOption]

private theorem forall₂_append_left {α β : Type} {R : α → β → Prop} {l₁ l₂ : List α} {m : List β}
    (h : List.Forall₂ R (l₁ ++ l₂) m) :
    ∃ m₁ m₂, List.Forall₂ R l₁ m₁ ∧ List.Forall₂ R l₂ m₂ ∧ m = m₁ ++ m₂ := by
  induction l₁ generalizing m with
  | nil => exact ⟨[], m, .nil, h, rfl⟩
  | cons x l₁ ih =>
    cases h with
    | cons hx h =>
      obtain ⟨m₁, m₂, h1, h2, rfl⟩ := ih h
      exact ⟨_ :: m₁, m₂, .cons hx h1, h2, rfl⟩

private theorem left_split {parts : List (List (MapOp E Q))} {a : PMap E Q} (ha : PMap.run h = .ok a)
    (hp : SplitInto h parts) {L : List (Qualifier Q × s.Val)} {Ms : List (List (Qualifier Q × s.Val))}
    (hL : Left q s h L) (hM : List.Forall₂ (Left q s) parts Ms) : L.Perm Ms.flatten := by
  obtain ⟨n, route, hr, rfl⟩ := hp
  rw [List.forall₂_map_left_iff] at hM
  have hlen : n = Ms.length := by simpa using hM.length_eq
  have part : ∀ (i : Nat) (hi : i < Ms.length), (Ms[i].map (·.1)).Nodup ∧
      ∀ k v, (k, v) ∈ Ms[i] ↔ route ⟨s, k⟩ = i ∧ a ⟨s, k⟩ = some v ∧ FlagSpec.Matches k q := by
    intro i hi
    have := hM.get (i := i) (by rw [List.length_range]; omega) hi
    simp only [List.get_eq_getElem, List.getElem_range] at this
    refine ⟨this.once, fun k v => ?_⟩
    obtain ⟨b, hb, hb'⟩ := PMap.run_callsTo route i ha
    rw [this.mem]
    constructor
    · rintro ⟨b', h1, h2, h3⟩
      cases hb.symm.trans h1
      rw [hb'] at h2
      split at h2
      · next hi => exact ⟨hi, h2, h3⟩
      · cases h2
    · rintro ⟨h1, h2, h3⟩
      exact ⟨b, hb, by rw [hb', if_pos h1]; exact h2, h3⟩
  refine (List.perm_ext_iff_of_nodup (List.Nodup.of_map _ hL.once) (List.nodup_flatten.2 ⟨?_, ?_⟩)).2 ?_
  · intro M hM
    obtain ⟨i, hi, rfl⟩ := List.getElem_of_mem hM
    exact List.Nodup.of_map _ (part i hi).1
  · rw [List.pairwise_iff_getElem]
    intro i j hi hj hij
    rintro ⟨k, v⟩ h1 h2
    have := ((part i hi).2 k v).1 h1
    have := ((part j hj).2 k v).1 h2
    omega
  · rintro ⟨k, v⟩
    rw [hL.mem, List.mem_flatten]
    constructor
    · rintro ⟨a', h1, h2, h3⟩
      cases ha.symm.trans h1
      have hlt : route ⟨s, k⟩ < n := by
        by_contra hc
        have := PMap.run_unused h ⟨s, k⟩ (a := PMap.empty) rfl (fun o ho hk => hc (hr o ho _ hk)) ha
        rw [this] at h2; cases h2
      exact ⟨_, List.getElem_mem (by omega), ((part _ (by omega)).2 k v).2 ⟨rfl, h2, h3⟩⟩
    · rintro ⟨M, hM, hm⟩
      obtain ⟨i, hi, rfl⟩ := List.getElem_of_mem hM
      obtain ⟨-, h2, h3⟩ := ((part i hi).2 k v).1 hm
      exact ⟨a, ha, h2, h3⟩

theorem mapPlaces_ofOps (J : Joined E Q Ent) (own items : List (Ent → Option (List (MapOp E Q)))) (e : Ent) :
    mapPlaces J (own.map (MapComp.ofOps (A := A))) (items.map MapComp.ofOps) e =
      (callPlaces J own items e).map fun x => (MapComp.ofOps x.1, x.2) := by
  simp [mapPlaces, callPlaces, List.map_flatMap, List.flatMap_map, Function.comp_def]

/-- C119: making the calls on several maps instead of one, on the entity or on its children, in any arrangement,
leaves the same modifiers for every stat and query. -/
theorem C119_split {own items own' items' : List (Ent → Option (List (MapOp E Q)))}
    (hr : ∀ h ∈ callsFound J own items e, ∃ m, StatMap.run A h = .ok m) (parts : List (List (List (MapOp E Q))))
    (hp : List.Forall₂ SplitInto (callsFound J own items e) parts)
    (hf : (callsFound J' own' items' e').Perm parts.flatten) (q : QualifierQuery Q) (s : StatInst E)
    (hs : Storable (E.layout s.ty)) :
    SameModifiers J (own.map (MapComp.ofOps (A := A))) (items.map MapComp.ofOps) e
      J' (own'.map MapComp.ofOps) (items'.map MapComp.ofOps) e' q s := by
  obtain ⟨Ls, ⟨h1, -⟩, -⟩ := places_listed (mapPlaces J (own.map (MapComp.ofOps (A := A))) (items.map MapComp.ofOps) e)
    e q s hs
  obtain ⟨Ls', ⟨h1', -⟩, -⟩ := places_listed
    (mapPlaces J' (own'.map (MapComp.ofOps (A := A))) (items'.map MapComp.ofOps) e') e' q s hs
  refine ⟨Ls, Ls', h1, h1', ?_⟩
  rw [mapPlaces_ofOps] at h1 h1'
  have hr' : ∀ h ∈ callsFound J' own' items' e', ∃ m, StatMap.run A h = .ok m := by
    intro p hpm
    have := (hf.mem_iff.1 hpm)
    obtain ⟨ps, hps, hpp⟩ := List.mem_flatten.1 this
    obtain ⟨i, hi, rfl⟩ := List.getElem_of_mem hps
    have hi' : i < (callsFound J own items e).length := by rw [hp.length_eq]; exact hi
    obtain ⟨m, hm⟩ := hr _ (List.getElem_mem hi')
    exact C119_parts_return hm (hp.get hi' hi) p hpp
  obtain ⟨Ms, m1, m2⟩ := left_of_places hr h1
  obtain ⟨Ms', m1', m2'⟩ := left_of_places hr' h1'
  rw [m2, m2']
  obtain ⟨Ns, n1, n2⟩ := forall₂_perm hf m1'
  refine List.Perm.trans ?_ (List.Perm.flatten n2.symm)
  clear hf m1' m2 m2' h1 h1' hr' n2
  change List.Forall₂ _ (callsFound J own items e) Ms at m1
  revert hr
  generalize callsFound J own items e = hs at *
  intro hr
  induction m1 generalizing parts Ns with
  | nil => cases hp; cases n1; exact .refl _
  | cons hx _ ih =>
    cases hp with
    | @cons _ p _ parts hsp hp =>
      rw [List.flatten_cons] at n1
      obtain ⟨N₁, N₂, h1, h2, rfl⟩ := forall₂_append_left n1
      rw [List.flatten_cons, List.flatten_append]
      obtain ⟨m, hm⟩ := hr _ List.mem_cons_self
      obtain ⟨a, ha, -⟩ := reachRep A hm
      exact (left_split ha hsp hx h1).append (ih _ _ h2 hp fun h hh => hr h (by simp [hh]))
end Split

/-! ### a concrete case -/

/-- entity 0 has one map, with three modifiers -/
def demoWhole (e : Nat) : Option (List (MapOp demo (BitVec 8))) :=
  if e = 0 then some [.insertBase ⟨0, 0⟩ (demoInt 0) (5 : Int), .insertBase ⟨1, 0⟩ (demoInt 0) (100 : Int),
    .removeAll (demoInt 1), .modify ⟨0, 0⟩ (demoInt 0) (.mul (3 : Int)), .modify ⟨1, 0⟩ (demoInt 0) (.max (600 : Int))]
  else none
/-- or only the unqualified one -/
def demoPart₀ (e : Nat) : Option (List (MapOp demo (BitVec 8))) :=
  if e = 0 then some [.insertBase ⟨0, 0⟩ (demoInt 0) (5 : Int), .removeAll (demoInt 1),
    .modify ⟨0, 0⟩ (demoInt 0) (.mul (3 : Int))] else none
/-- the other one being kept on its child 3 -/
def demoPart₁ (e : Nat) : Option (List (MapOp demo (BitVec 8))) :=
  if e = 3 then some [.insertBase ⟨1, 0⟩ (demoInt 0) (100 : Int), .removeAll (demoInt 1),
    .modify ⟨1, 0⟩ (demoInt 0) (.max (600 : Int))] else none

def demoLayout (own items : Nat → Option (List (MapOp demo (BitVec 8)))) : Joined demo (BitVec 8) Nat :=
  (({ demoWorld with relations := none }).withComponent (MapComp.ofOps (A := demoAddr) own).stream).withChildren
    (MapComp.ofOps (A := demoAddr) items).stream

def demoLayoutQ : QualifierQuery (BitVec 8) := .aggregate 1

theorem demoLayout_same (s : StatInst demo) (hs : Storable (demo.layout s.ty)) (q : QualifierQuery (BitVec 8)) :
    SameModifiers (demoLayout demoWhole fun _ => none) ([demoWhole].map (MapComp.ofOps (A := demoAddr)))
      ([fun _ => none].map MapComp.ofOps) 0 (demoLayout demoPart₀ demoPart₁)
      ([demoPart₀].map MapComp.ofOps) ([demoPart₁].map MapComp.ofOps) 0 q s := by
  refine C119_split (J := demoLayout demoWhole fun _ => none) (J' := demoLayout demoPart₀ demoPart₁)
    (own := [demoWhole]) (items := [fun _ => none]) (own' := [demoPart₀]) (items' := [demoPart₁])
    ?_ [(List.range 2).map fun i => callsTo (fun k => if k.qual = ⟨1, 0⟩ then 1 else 0) i ((demoWhole 0).getD [])]
    (.cons ⟨2, fun k => if k.qual = ⟨1, 0⟩ then 1 else 0, ?_, rfl⟩ .nil) (.of_eq rfl) q s hs
  · intro h hh
    cases List.mem_singleton.1 (show h ∈ [_] from hh)
    exact ⟨_, rfl⟩
  · intro o _ k _
    dsimp only
    split <;> omega

/-- both come to `(0 + 5 + 100) * 3`, at most 600 -/
example : ((demoLayout demoWhole fun _ => none).answer demoAddr 1 (.stat 0 demoLayoutQ (demoInt 0)) : Res (Option StatInt)) =
      .ok (some ⟨105, -2147483648, 600, 3⟩) ∧
    ((demoLayout demoPart₀ demoPart₁).answer demoAddr 1 (.stat 0 demoLayoutQ (demoInt 0)) : Res (Option StatInt)) =
      .ok (some ⟨105, -2147483648, 600, 3⟩) := ⟨rfl, rfl⟩

/-- and C119 says so -/
example : ∃ l l' : List StatInt, l.Perm l' ∧
    (∀ n, ((demoLayout demoWhole fun _ => none).answer demoAddr (n + 1) (.stat 0 demoLayoutQ (demoInt 0)) :
      Res (Option StatInt)) = (joinList (demoInt 0).sv (demoInt 0).sv.default l >>= fun x => .ok (some x))) ∧
    ∀ n, ((demoLayout demoPart₀ demoPart₁).answer demoAddr (n + 1) (.stat 0 demoLayoutQ (demoInt 0)) :
      Res (Option StatInt)) = (joinList (demoInt 0).sv (demoInt 0).sv.default l' >>= fun x => .ok (some x)) :=
  C119_values ⟨rfl, rfl, rfl, rfl⟩ ⟨rfl, rfl, rfl, rfl⟩ (demoLayout_same (demoInt 0) (by decide) demoLayoutQ)
    (by decide) rfl rfl _ rfl rfl

theorem demoWhole_assembled : AssembledFrom (demoLayout demoWhole fun _ => none)
    ([demoWhole].map (MapComp.ofOps (A := demoAddr))) ([fun _ => none].map MapComp.ofOps) 0 demoLayoutQ (demoInt 0)
    (D := statInt ⟨.i32, .prim, .debug⟩) rfl [.base 5, .mul 3, .base 100, .max 600] := by
  refine C111_calls (A := demoAddr) (demoLayout demoWhole fun _ => none) [demoWhole] [fun _ => none] 0 demoLayoutQ
    (demoInt 0) rfl ?_ rfl [[(⟨0, 0⟩, [.base (5 : Int), .mul (3 : Int)]), (⟨1, 0⟩, [.base (100 : Int), .max (600 : Int)])],
      [], []] (.cons ⟨by decide, fun k l => ?_⟩ (.cons ⟨by decide, fun k l => ?_⟩ (.cons ⟨by decide, fun k l => ?_⟩ .nil)))
  · intro c hc e h hh
    rcases List.mem_cons.1 hc with rfl | hc
    · unfold demoWhole at hh
      split at hh
      · cases hh
        refine ⟨⟨_, rfl⟩, fun o ho => ?_⟩
        simp only [List.mem_cons, List.not_mem_nil, or_false] at ho
        rcases ho with rfl | rfl | rfl | rfl | rfl <;> trivial
      · cases hh
    · cases List.mem_singleton.1 (show c ∈ [_] from hc)
      cases hh
  · have hj : Journal.ofCalls (demoInt 0) ((demoWhole 0).getD []) = fun k =>
        if k = ⟨1, 0⟩ then some [.base (100 : Int), .max (600 : Int)] else
        if k = ⟨0, 0⟩ then some [.base (5 : Int), .mul (3 : Int)] else none := by
      funext k
      by_cases h1 : k = ⟨1, 0⟩
      · subst h1; rfl
      · by_cases h2 : k = ⟨0, 0⟩
        · subst h2; rfl
        · simp [demoWhole, Journal.ofCalls, Journal.step, demoInt]
          have h1 : ¬ k = ⟨1#8, 0#8⟩ := h1
          have h2 : ¬ k = ⟨0#8, 0#8⟩ := h2
          simp only [if_neg h1, if_neg h2]
    constructor
    · intro h
      simp only [List.mem_cons, List.not_mem_nil, or_false] at h
      rcases h with h | h <;> cases h
      · exact ⟨_, rfl, rfl, by rw [← matches_iff]; decide⟩
      · exact ⟨_, rfl, rfl, by rw [← matches_iff]; decide⟩
    · rintro ⟨h, h1, h2, -⟩
      cases h1
      have h2 := (congrFun hj k).symm.trans h2
      split at h2
      · next hk => cases h2; rw [hk]; simp
      · split at h2
        · next hk => cases h2; rw [hk]; simp
        · cases h2
  · constructor
    · intro h; cases h
    · rintro ⟨h, h1, -⟩; cases h1
  · constructor
    · intro h; cases h
    · rintro ⟨h, h1, -⟩; cases h1

/-- the hypotheses of `C119_equal` are met -/
example : ∃ (w w' : StatInt) (out : Int),
    (∀ n, (demoLayout demoWhole fun _ => none).answer demoAddr (n + 1) (.stat 0 demoLayoutQ (demoInt 0)) =
      .ok (some w)) ∧ (demoInt 0).sv.eval w = .ok out ∧
    (∀ n, (demoLayout demoPart₀ demoPart₁).answer demoAddr (n + 1) (.stat 0 demoLayoutQ (demoInt 0)) =
      .ok (some w')) ∧ (demoInt 0).sv.eval w' = .ok out :=
  C119_equal ⟨rfl, rfl, rfl, rfl⟩ ⟨rfl, rfl, rfl, rfl⟩ (demoLayout_same (demoInt 0) (by decide) demoLayoutQ)
    (by decide) rfl rfl rfl (C112_closed_int ⟨.i32, .prim, .debug⟩ rfl) (C119_determined _ .floor 1 (BitVec 8) Bool).1
    demoWhole_assembled (by decide) (by unfold statInt.Fits; decide)

end BSQ
