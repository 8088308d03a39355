import Verif.Spec.Monotone
import Verif.Proofs.Monotone
import Verif.Props.FloatMul
/-!
# C71: bonuses are monotone in floating point and saturating arithmetic

There the order of operations matters, so the two assemblies compared have the same shape except for the extra
operations (`Tree.Extra`).
-/
namespace BSQ

/-- Simulation along `Tree.Extra`. -/
theorem Tree.Extra.lift {V : Type} {D : StatValue V} {B ok : StatOp D → Prop} (Rel : V → V → Prop)
    (hd : Rel D.default D.default)
    (hb : ∀ b, ok (.base b) → Rel (D.fromBase b) (D.fromBase b))
    (ho : ∀ o v v' w w', ¬ o.IsBase → ok o → Rel v v' → o.writeTo v = .ok w → o.writeTo v' = .ok w' → Rel w w')
    (hj : ∀ a a' b b' w w', Rel a a' → Rel b b' → D.join a b = .ok w → D.join a' b' = .ok w' → Rel w w')
    (hx : ∀ o v v' w', ¬ o.IsBase → ok o → B o → Rel v v' → o.writeTo v' = .ok w' → Rel v w')
    (hxb : ∀ b, ok (.base b) → B (.base b) → Rel D.default (D.fromBase b))
    (hxj : ∀ v v' r w', Rel v v' → Rel D.default r → D.join v' r = .ok w' → Rel v w')
    {t t' : Tree D} (h : Tree.Extra B t t') :
    ∀ v v', t'.NoReset → (∀ o ∈ t'.leaves, ok o) → t.run = .ok v → t'.run = .ok v' → Rel v v' := by
  induction h with
  | dflt => intro v v' _ _ e e'; cases e; cases e'; exact hd
  | base b => intro v v' _ hok e e'; cases e; cases e'; exact hb b (hok _ (by simp [Tree.leaves]))
  | op o _ ih =>
    intro v v' hn hok e e'
    obtain ⟨a, ha, e⟩ := Res.bind_eq_ok.1 e
    obtain ⟨a', ha', e'⟩ := Res.bind_eq_ok.1 e'
    exact ho o a a' v v' hn.2 (hok _ (by simp [Tree.leaves]))
      (ih a a' hn.1 (fun o h => hok o (by simp [Tree.leaves, h])) ha ha') e e'
  | join _ _ ih1 ih2 =>
    intro v v' hn hok e e'
    obtain ⟨a, ha, e⟩ := Res.bind_eq_ok.1 e
    obtain ⟨b, hb, e⟩ := Res.bind_eq_ok.1 e
    obtain ⟨a', ha', e'⟩ := Res.bind_eq_ok.1 e'
    obtain ⟨b', hb', e'⟩ := Res.bind_eq_ok.1 e'
    exact hj a a' b b' v v' (ih1 a a' hn.1 (fun o h => hok o (by simp [Tree.leaves, h])) ha ha')
      (ih2 b b' hn.2 (fun o h => hok o (by simp [Tree.leaves, h])) hb hb') e e'
  | extra o _ hB ih =>
    intro v v' hn hok e e'
    obtain ⟨a', ha', e'⟩ := Res.bind_eq_ok.1 e'
    exact hx o v a' v' hn.2 (hok _ (by simp [Tree.leaves])) hB
      (ih v a' hn.1 (fun o h => hok o (by simp [Tree.leaves, h])) e ha') e'
  | extraBase b hB =>
    intro v v' _ hok e e'; cases e; cases e'; exact hxb b (hok _ (by simp [Tree.leaves])) hB
  | extraJoin _ _ ih1 ih2 =>
    intro v v' hn hok e e'
    obtain ⟨a', ha', e'⟩ := Res.bind_eq_ok.1 e'
    obtain ⟨b', hb', e'⟩ := Res.bind_eq_ok.1 e'
    exact hxj v a' b' v' (ih1 v a' hn.1 (fun o h => hok o (by simp [Tree.leaves, h])) e ha')
      (ih2 _ b' hn.2 (fun o h => hok o (by simp [Tree.leaves, h])) rfl hb') e'

namespace Fl

theorem Le.refl {a : Fl} (h : a ≠ .nan) : Le a a := by cases a <;> simp_all [Le]
theorem Le.trans {a b c : Fl} (h : Le a b) (h' : Le b c) : Le a c := by
  cases a <;> cases b <;> cases c <;> simp_all [Le]
  exact le_trans h h'
theorem Le.left {a b : Fl} (h : Le a b) : a ≠ .nan := by cases a <;> simp_all [Le]
theorem Le.right {a b : Fl} (h : Le a b) : b ≠ .nan := by cases a <;> cases b <;> simp_all [Le]

theorem min_mono {a b : Fl} (c : Fl) (h : Le a b) : Le (Fl.min a c) (Fl.min b c) := by
  cases a <;> cases b <;> cases c <;> simp_all [Le, Fl.min] <;> grind

theorem max_mono {a b c d : Fl} (h : Le a b) (h' : Le c d) : Le (Fl.max a c) (Fl.max b d) := by
  cases a <;> cases b <;> cases c <;> cases d <;> simp_all [Le, Fl.max] <;> grind

theorem max_mono_left {a b : Fl} (c : Fl) (h : Le a b) : Le (Fl.max a c) (Fl.max b c) := by
  cases a <;> cases b <;> cases c <;> simp_all [Le, Fl.max] <;> grind

theorem min_mono₂ {a b c d : Fl} (h : Le a b) (h' : Le c d) : Le (Fl.min a c) (Fl.min b d) := by
  cases a <;> cases b <;> cases c <;> cases d <;> simp_all [Le, Fl.min] <;> grind

theorem le_max_left {a : Fl} (h : a ≠ .nan) (b : Fl) : Le a (Fl.max a b) := by
  cases a <;> cases b <;> simp_all [Le, Fl.max] <;> grind

theorem min_le_left {a : Fl} (h : a ≠ .nan) (b : Fl) : Le (Fl.min a b) a := by
  cases a <;> cases b <;> simp_all [Le, Fl.min] <;> grind

theorem rnd_mono {f : Fmt} (hf : f.Normal) {x y : ℚ} (h : x ≤ y) : Le (f.rnd x) (f.rnd y) := by
  have hr := f.raw_mono hf.p_pos h
  rw [f.rnd_eq_raw, f.rnd_eq_raw]
  split
  · rw [if_pos (by linarith)]; trivial
  split
  · split
    · trivial
    · split <;> trivial
  rename_i h1 h2
  split
  · trivial
  · rw [if_neg (by push Not at *; linarith)]; exact hr

theorem add_eq_fin {f : Fmt} {a b : Fl} {r : ℚ} (h : add f a b = .fin r) :
    ∃ x y, a = .fin x ∧ b = .fin y ∧ f.rnd (x + y) = .fin r := by
  cases a <;> cases b <;> simp_all [add]

theorem infMul_ne_fin (s : Bool) (x : Fl) (r : ℚ) : infMul s x ≠ .fin r := by
  cases x <;> cases s <;> simp [infMul]
  all_goals split_ifs <;> simp

theorem mul_eq_fin {f : Fmt} {a b : Fl} {r : ℚ} (h : mul f a b = .fin r) :
    ∃ x y, a = .fin x ∧ b = .fin y ∧ f.rnd (x * y) = .fin r := by
  cases a <;> cases b <;> simp_all [mul, infMul_ne_fin]

theorem rnd_nonneg {f : Fmt} (hf : f.Normal) {x r : ℚ} (h : 0 ≤ x) (e : f.rnd x = .fin r) : 0 ≤ r := by
  have := rnd_mono hf h
  rw [e] at this
  simpa [Fmt.rnd, Le] using this

theorem rnd_le {f : Fmt} (hf : f.Normal) {x y r s : ℚ} (h : x ≤ y) (e : f.rnd x = .fin r) (e' : f.rnd y = .fin s) :
    r ≤ s := by
  have := rnd_mono hf h
  rw [e, e'] at this
  exact this

/-- below a finite result there is no overflow -/
theorem rnd_fin_of_le {f : Fmt} (hf : f.Normal) {x y s : ℚ} (h0 : 0 ≤ x) (h : x ≤ y) (e : f.rnd y = .fin s) :
    ∃ r, f.rnd x = .fin r := by
  have h1 := rnd_mono hf h
  have h2 := rnd_mono hf h0
  rw [e] at h1
  rw [show f.rnd 0 = .fin 0 by simp [Fmt.rnd]] at h2
  cases hx : f.rnd x <;> simp_all [Le]

theorem rep_int {f : Fmt} (hf : f.Normal) {z : ℤ} (hz : |z| ≤ 2 ^ f.p) : f.Rep z :=
  f.rep_of_rnd hf (f.rnd_int hf hz)

/-- overflowed: `+∞`, or NaN, which clamping treats alike -/
def Top (x : Fl) : Prop := x = .pinf ∨ x = .nan

/-- `x ≤ x'`, non-negative numbers of the format, where `x'` may have overflowed -/
def Below (f : Fmt) (x x' : Fl) : Prop :=
  Top x' ∨ ∃ r r', x = .fin r ∧ x' = .fin r' ∧ 0 ≤ r ∧ r ≤ r' ∧ f.Rep r ∧ f.Rep r'

theorem Below.self {f : Fmt} {x : Fl} (h : Le (.fin 0) x) (ho : x.Of f) : Below f x x := by
  cases x with
  | nan => exact h.elim
  | ninf => exact h.elim
  | pinf => exact .inl (.inl rfl)
  | fin r => exact .inr ⟨r, r, rfl, rfl, h, le_rfl, ho, ho⟩

theorem Below.zero {f : Fmt} (hf : f.Normal) {x : Fl} (h : Le (.fin 0) x) (ho : x.Of f) : Below f (.fin 0) x := by
  cases x with
  | nan => exact h.elim
  | ninf => exact h.elim
  | pinf => exact .inl (.inl rfl)
  | fin r => exact .inr ⟨0, r, rfl, rfl, le_rfl, h, rep_zero hf, ho⟩
theorem Below.one {f : Fmt} (hf : f.Normal) {x : Fl} (h : Le (.fin 1) x) (ho : x.Of f) : Below f (.fin 1) x := by
  cases x with
  | nan => exact h.elim
  | ninf => exact h.elim
  | pinf => exact .inl (.inl rfl)
  | fin r => exact .inr ⟨1, r, rfl, rfl, zero_le_one, h, rep_one hf, ho⟩

/-- rounding ordered non-negative numbers -/
theorem Below.rnd {f : Fmt} (hf : f.Normal) {x y : ℚ} (h0 : 0 ≤ x) (h : x ≤ y) : Below f (f.rnd x) (f.rnd y) := by
  cases hy : f.rnd y with
  | nan => exact .inl (.inr rfl)
  | pinf => exact .inl (.inl rfl)
  | ninf =>
    have := rnd_mono hf (h0.trans h)
    rw [hy, show f.rnd 0 = .fin 0 by simp [Fmt.rnd]] at this
    exact this.elim
  | fin s =>
    obtain ⟨r, hr⟩ := rnd_fin_of_le hf h0 h hy
    exact .inr ⟨r, s, hr, rfl, rnd_nonneg hf h0 hr, rnd_le hf h hr hy, f.rep_of_rnd hf hr, f.rep_of_rnd hf hy⟩

theorem Below.right {f : Fmt} {x x' : Fl} (h : Below f x x') : Top x' ∨ ∃ r', x' = .fin r' ∧ 0 ≤ r' := by
  rcases h with h | ⟨r, r', -, rfl, h0, h, -, -⟩
  · exact .inl h
  · exact .inr ⟨r', rfl, h0.trans h⟩

theorem top_add {f : Fmt} {x y : Fl} (hx : Top x) (hy : Top y ∨ ∃ r, y = .fin r ∧ 0 ≤ r) : Top (Fl.add f x y) := by
  rcases hx with rfl | rfl <;> rcases hy with (rfl | rfl) | ⟨r, rfl, h⟩ <;> simp [Top, Fl.add]
theorem top_mul {f : Fmt} {x y : Fl} (hx : Top x) (hy : Top y ∨ ∃ r, y = .fin r ∧ 0 ≤ r) : Top (Fl.mul f x y) := by
  rcases hx with rfl | rfl <;> rcases hy with (rfl | rfl) | ⟨r, rfl, h⟩ <;> simp [Top, Fl.mul, infMul]
  by_cases h0 : r = 0
  · simp [h0]
  · simp [h0, lt_of_le_of_ne h (Ne.symm h0)]

theorem Below.add {f : Fmt} (hf : f.Normal) {x x' y y' : Fl} (h : Below f x x') (h' : Below f y y') :
    Below f (Fl.add f x y) (Fl.add f x' y') := by
  have k := h.right; have k' := h'.right
  rcases h with h | ⟨a, a', rfl, rfl, a0, ale, -, -⟩
  · exact .inl (top_add h k')
  rcases h' with h' | ⟨b, b', rfl, rfl, b0, ble, -, -⟩
  · rw [Fl.add_comm f _ y']; exact .inl (top_add h' k)
  · exact Below.rnd hf (x := a + b) (by linarith) (by linarith)

theorem Below.mul {f : Fmt} (hf : f.Normal) {x x' y y' : Fl} (h : Below f x x') (h' : Below f y y') :
    Below f (Fl.mul f x y) (Fl.mul f x' y') := by
  have k := h.right; have k' := h'.right
  rcases h with h | ⟨a, a', rfl, rfl, a0, ale, -, -⟩
  · exact .inl (top_mul h k')
  rcases h' with h' | ⟨b, b', rfl, rfl, b0, ble, -, -⟩
  · rw [Fl.mul_comm f _ y']; exact .inl (top_mul h' k)
  · exact Below.rnd hf (mul_nonneg a0 b0) (mul_le_mul ale ble b0 (a0.trans ale))

theorem Below.add_extra {f : Fmt} (hf : f.Normal) {x x' y : Fl} (h : Below f x x') (h' : Below f (.fin 0) y) :
    Below f x (Fl.add f x' y) := by
  have k := h.right; have k' := h'.right
  rcases h with h | ⟨a, a', rfl, rfl, a0, ale, ra, -⟩
  · exact .inl (top_add h k')
  rcases h' with h' | ⟨b, b', hb, rfl, -, ble, -, -⟩
  · rw [Fl.add_comm f _ y]; exact .inl (top_add h' k)
  · cases hb
    have := Below.rnd hf (x := a) (y := a' + b') a0 (by linarith)
    rwa [f.rnd_rep hf ra] at this

theorem Below.mul_extra {f : Fmt} (hf : f.Normal) {x x' y : Fl} (h : Below f x x') (h' : Below f (.fin 1) y) :
    Below f x (Fl.mul f x' y) := by
  have k := h.right; have k' := h'.right
  rcases h with h | ⟨a, a', rfl, rfl, a0, ale, ra, -⟩
  · exact .inl (top_mul h k')
  rcases h' with h' | ⟨b, b', hb, rfl, -, ble, -, -⟩
  · rw [Fl.mul_comm f _ y]; exact .inl (top_mul h' k)
  · cases hb
    have := Below.rnd hf (x := a) (y := a' * b') a0 (by nlinarith)
    rwa [f.rnd_rep hf ra] at this

/-- an upper bound no greater than the greatest float -/
def Capped (f : Fmt) (x : Fl) : Prop := Fl.min x (.fin f.maxVal) = x
/-- a lower bound no less than the least float -/
def Floored (f : Fmt) (x : Fl) : Prop := Fl.max x (.fin (-f.maxVal)) = x

theorem Capped.min {f : Fmt} {x : Fl} (h : Capped f x) (b : Fl) : Capped f (Fl.min x b) := by
  unfold Capped at *
  cases x <;> cases b <;> simp_all [Fl.min] <;> grind
theorem Floored.max {f : Fmt} {x : Fl} (h : Floored f x) (b : Fl) : Floored f (Fl.max x b) := by
  unfold Floored at *
  cases x <;> cases b <;> simp_all [Fl.max] <;> grind
theorem Capped.base (f : Fmt) : Capped f (.fin f.maxVal) := by simp [Capped, Fl.min]
theorem Floored.base (f : Fmt) : Floored f (.fin (-f.maxVal)) := by simp [Floored, Fl.max]

/-- lower bounds `lo ≤ lo'` and a shared upper bound -/
structure BoundsUp (f : Fmt) (lo lo' hi hi' : Fl) : Prop where
  lo : Le lo lo'
  hi : hi = hi'
  capped : Capped f hi'

theorem BoundsUp.base (f : Fmt) : BoundsUp f (.fin (-f.maxVal)) (.fin (-f.maxVal)) (.fin f.maxVal) (.fin f.maxVal) :=
  ⟨Le.refl (by simp), rfl, Capped.base f⟩
theorem BoundsUp.min {f : Fmt} {lo lo' hi hi' : Fl} (h : BoundsUp f lo lo' hi hi') (b : Fl) :
    BoundsUp f (Fl.max lo b) (Fl.max lo' b) hi hi' := ⟨max_mono_left b h.lo, h.hi, h.capped⟩
theorem BoundsUp.max {f : Fmt} {lo lo' hi hi' : Fl} (h : BoundsUp f lo lo' hi hi') (b : Fl) :
    BoundsUp f lo lo' (Fl.min hi b) (Fl.min hi' b) := ⟨h.lo, by rw [h.hi], h.capped.min b⟩
theorem BoundsUp.join {f : Fmt} {lo lo' hi hi' lo2 lo2' hi2 hi2' : Fl} (h : BoundsUp f lo lo' hi hi')
    (h2 : BoundsUp f lo2 lo2' hi2 hi2') :
    BoundsUp f (Fl.max lo lo2) (Fl.max lo' lo2') (Fl.min hi hi2) (Fl.min hi' hi2') :=
  ⟨max_mono h.lo h2.lo, by rw [h.hi, h2.hi], h.capped.min _⟩
theorem BoundsUp.extraMin {f : Fmt} {lo lo' hi hi' : Fl} (h : BoundsUp f lo lo' hi hi') (b : Fl) :
    BoundsUp f lo (Fl.max lo' b) hi hi' := ⟨h.lo.trans (le_max_left h.lo.right b), h.hi, h.capped⟩
theorem BoundsUp.extraJoin {f : Fmt} {lo lo' hi hi' lo2' hi2' : Fl} (h : BoundsUp f lo lo' hi hi')
    (h2 : BoundsUp f (.fin (-f.maxVal)) lo2' (.fin f.maxVal) hi2') :
    BoundsUp f lo (Fl.max lo' lo2') hi (Fl.min hi' hi2') := by
  refine ⟨h.lo.trans (le_max_left h.lo.right _), ?_, h.capped.min _⟩
  rw [← h2.hi, h.capped]; exact h.hi
theorem Capped.ne_nan {f : Fmt} {x : Fl} (h : Capped f x) : x ≠ .nan := by
  rintro rfl; simp [Capped, Fl.min] at h
theorem min_top {f : Fmt} {x hi : Fl} (h : Capped f hi) (hx : Top x) : Fl.min x hi = hi := by
  unfold Capped at h
  rcases hx with rfl | rfl <;> cases hi <;> simp_all [Fl.min]
theorem min_le_right {b : Fl} (h : b ≠ .nan) (a : Fl) : Le (Fl.min a b) b := by
  rw [Fl.min_comm]; exact min_le_left h a

/-- clamping ordered products -/
theorem BoundsUp.clamp {f : Fmt} {lo lo' hi hi' x x' : Fl} (h : BoundsUp f lo lo' hi hi') (hx : Below f x x') :
    Le (Fl.max (Fl.min x hi) lo) (Fl.max (Fl.min x' hi') lo') := by
  rw [h.hi]
  refine max_mono ?_ h.lo
  rcases hx with hx | ⟨r, r', rfl, rfl, -, hle, -, -⟩
  · rw [min_top h.capped hx]; exact min_le_right h.capped.ne_nan x
  · exact min_mono _ hle

end Fl

/-- non-negative operands of the format; bounds may be anything, NaN included -/
def statFloat.NonNeg (f : Fmt) : StatOp (statFloat (Fl.ops f)) → Prop
  | .add a => Fl.Le (.fin 0) a ∧ a.Of f
  | .mul m => Fl.Le (.fin 0) m ∧ m.Of f
  | .base b => Fl.Le (.fin 0) b ∧ b.Of f
  | _ => True
/-- operations meant to raise a non-negative stat: `Add`, `Mul` by at least one, `Min` -/
def statFloat.Bonus (f : Fmt) : StatOp (statFloat (Fl.ops f)) → Prop
  | .add a => Fl.Le (.fin 0) a
  | .mul m => Fl.Le (.fin 1) m
  | .base b => Fl.Le (.fin 0) b
  | .min _ => True
  | _ => False

structure StatFloat.Up (f : Fmt) (v v' : StatFloat Fl) : Prop where
  addend : Fl.Below f v.addend v'.addend
  mult : Fl.Below f v.mult v'.mult
  bounds : Fl.BoundsUp f v.min v'.min v.max v'.max

/-- C71 for `StatFloat` over `f32`/`f64`: if all addends and multipliers are non-negative, extra bonuses
anywhere never lower the result, also when intermediate results overflow to infinity or turn NaN. -/
theorem C71_statFloat (f : Fmt) (hf : f.Normal) (tr tr' : Tree (statFloat (Fl.ops f)))
    (hx : Tree.Extra (statFloat.Bonus f) tr tr') (hn : tr'.NoReset)
    (hok : ∀ o ∈ tr'.leaves, statFloat.NonNeg f o) (v v' : StatFloat Fl) (hv : tr.run = .ok v)
    (hv' : tr'.run = .ok v') (out out' : Fl) (he : (statFloat (Fl.ops f)).eval v = .ok out)
    (he' : (statFloat (Fl.ops f)).eval v' = .ok out') :
    Fl.Le out out' := by
  have h0 := Fl.rep_zero hf
  have h1 := Fl.rep_one hf
  have b0 : Fl.Below f (.fin 0) (.fin 0) := Fl.Below.zero hf (by simp [Fl.Le]) h0
  have b1 : Fl.Below f (.fin 1) (.fin 1) := Fl.Below.one hf (by simp [Fl.Le]) h1
  have key : StatFloat.Up f v v' := by
    refine Tree.Extra.lift (ok := statFloat.NonNeg f) (StatFloat.Up f) ⟨b0, b1, Fl.BoundsUp.base f⟩ ?_ ?_ ?_ ?_ ?_ ?_
      hx v v' hn hok hv hv'
    · intro b hb
      exact ⟨Fl.Below.self hb.1 hb.2, b1, Fl.BoundsUp.base f⟩
    · intro o v v' w w' hnb ho h e e'
      cases o with
      | or x => exact x.elim
      | not x => exact x.elim
      | base b => exact absurd trivial hnb
      | add a => cases e; cases e'; exact ⟨h.addend.add hf (Fl.Below.self ho.1 ho.2), h.mult, h.bounds⟩
      | mul a => cases e; cases e'; exact ⟨h.addend, h.mult.mul hf (Fl.Below.self ho.1 ho.2), h.bounds⟩
      | min b => cases e; cases e'; exact ⟨h.addend, h.mult, h.bounds.min b⟩
      | max b => cases e; cases e'; exact ⟨h.addend, h.mult, h.bounds.max b⟩
    · intro a a' b b' w w' h h' e e'
      cases e; cases e'
      exact ⟨h.addend.add hf h'.addend, h.mult.mul hf h'.mult, h.bounds.join h'.bounds⟩
    · intro o v v' w' hnb ho hB h e'
      cases o with
      | or x => exact x.elim
      | not x => exact x.elim
      | base b => exact absurd trivial hnb
      | add a => cases e'; exact ⟨h.addend.add_extra hf (Fl.Below.zero hf ho.1 ho.2), h.mult, h.bounds⟩
      | mul a => cases e'; exact ⟨h.addend, h.mult.mul_extra hf (Fl.Below.one hf hB ho.2), h.bounds⟩
      | min b => cases e'; exact ⟨h.addend, h.mult, h.bounds.extraMin b⟩
      | max b => exact hB.elim
    · intro b hb _
      exact ⟨Fl.Below.zero hf hb.1 hb.2, b1, Fl.BoundsUp.base f⟩
    · intro v v' r w' h h' e'
      cases e'
      exact ⟨h.addend.add_extra hf h'.addend, h.mult.mul_extra hf h'.mult, h.bounds.extraJoin h'.bounds⟩
  cases he; cases he'
  exact key.bounds.clamp (key.addend.mul hf key.mult)

/-- non-negative operands of the format; bounds may be anything, NaN included -/
def statFloatAdditive.NonNeg (f : Fmt) : StatOp (statFloatAdditive (Fl.ops f)) → Prop
  | .add a => Fl.Le (.fin 0) a ∧ a.Of f
  | .mul m => Fl.Le (.fin 0) m ∧ m.Of f
  | .base b => Fl.Le (.fin 0) b ∧ b.Of f
  | _ => True
/-- operations meant to raise a non-negative stat: `Add`, non-negative `Mul`, `Min` -/
def statFloatAdditive.Bonus (f : Fmt) : StatOp (statFloatAdditive (Fl.ops f)) → Prop
  | .add a => Fl.Le (.fin 0) a
  | .mul m => Fl.Le (.fin 0) m
  | .base b => Fl.Le (.fin 0) b
  | .min _ => True
  | _ => False

structure StatFloatAdditive.Up (f : Fmt) (v v' : StatFloatAdditive Fl) : Prop where
  addend : Fl.Below f v.addend v'.addend
  mult : Fl.Below f v.mult v'.mult
  bounds : Fl.BoundsUp f v.min v'.min v.max v'.max

/-- C71 for `StatFloatAdditive` over `f32`/`f64`: if all addends and multipliers are non-negative, extra bonuses
anywhere never lower the result, also when intermediate results overflow to infinity or turn NaN. -/
theorem C71_statFloatAdditive (f : Fmt) (hf : f.Normal) (tr tr' : Tree (statFloatAdditive (Fl.ops f)))
    (hx : Tree.Extra (statFloatAdditive.Bonus f) tr tr') (hn : tr'.NoReset)
    (hok : ∀ o ∈ tr'.leaves, statFloatAdditive.NonNeg f o) (v v' : StatFloatAdditive Fl) (hv : tr.run = .ok v)
    (hv' : tr'.run = .ok v') (out out' : Fl) (he : (statFloatAdditive (Fl.ops f)).eval v = .ok out)
    (he' : (statFloatAdditive (Fl.ops f)).eval v' = .ok out') :
    Fl.Le out out' := by
  have h0 := Fl.rep_zero hf
  have h1 := Fl.rep_one hf
  have b0 : Fl.Below f (.fin 0) (.fin 0) := Fl.Below.zero hf (by simp [Fl.Le]) h0
  have b1 : Fl.Below f (.fin 1) (.fin 1) := Fl.Below.one hf (by simp [Fl.Le]) h1
  have key : StatFloatAdditive.Up f v v' := by
    refine Tree.Extra.lift (ok := statFloatAdditive.NonNeg f) (StatFloatAdditive.Up f) ⟨b0, b0, Fl.BoundsUp.base f⟩ ?_ ?_ ?_ ?_ ?_ ?_
      hx v v' hn hok hv hv'
    · intro b hb
      exact ⟨Fl.Below.self hb.1 hb.2, b0, Fl.BoundsUp.base f⟩
    · intro o v v' w w' hnb ho h e e'
      cases o with
      | or x => exact x.elim
      | not x => exact x.elim
      | base b => exact absurd trivial hnb
      | add a => cases e; cases e'; exact ⟨h.addend.add hf (Fl.Below.self ho.1 ho.2), h.mult, h.bounds⟩
      | mul a => cases e; cases e'; exact ⟨h.addend, h.mult.add hf (Fl.Below.self ho.1 ho.2), h.bounds⟩
      | min b => cases e; cases e'; exact ⟨h.addend, h.mult, h.bounds.min b⟩
      | max b => cases e; cases e'; exact ⟨h.addend, h.mult, h.bounds.max b⟩
    · intro a a' b b' w w' h h' e e'
      cases e; cases e'
      exact ⟨h.addend.add hf h'.addend, h.mult.add hf h'.mult, h.bounds.join h'.bounds⟩
    · intro o v v' w' hnb ho hB h e'
      cases o with
      | or x => exact x.elim
      | not x => exact x.elim
      | base b => exact absurd trivial hnb
      | add a => cases e'; exact ⟨h.addend.add_extra hf (Fl.Below.zero hf ho.1 ho.2), h.mult, h.bounds⟩
      | mul a => cases e'; exact ⟨h.addend, h.mult.add_extra hf (Fl.Below.zero hf ho.1 ho.2), h.bounds⟩
      | min b => cases e'; exact ⟨h.addend, h.mult, h.bounds.extraMin b⟩
      | max b => exact hB.elim
    · intro b hb _
      exact ⟨Fl.Below.zero hf hb.1 hb.2, b0, Fl.BoundsUp.base f⟩
    · intro v v' r w' h h' e'
      cases e'
      exact ⟨h.addend.add_extra hf h'.addend, h.mult.add_extra hf h'.mult, h.bounds.extraJoin h'.bounds⟩
  cases he; cases he'
  exact key.bounds.clamp (key.addend.mul hf (key.mult.add hf b1))

/-- non-negative multipliers of the format; bounds may be anything, NaN included -/
def statMult.NonNeg (f : Fmt) : StatOp (statMult (Fl.ops f)) → Prop
  | .mul m => Fl.Le (.fin 0) m ∧ m.Of f
  | .base b => Fl.Le (.fin 0) b ∧ b.Of f
  | _ => True
/-- multipliers of at least one, and `Min` -/
def statMult.Bonus (f : Fmt) : StatOp (statMult (Fl.ops f)) → Prop
  | .mul m => Fl.Le (.fin 1) m
  | .base b => Fl.Le (.fin 1) b
  | .min _ => True
  | _ => False

structure StatMult.Up (f : Fmt) (v v' : StatMult Fl) : Prop where
  mult : Fl.Below f v.mult v'.mult
  bounds : Fl.BoundsUp f v.min v'.min v.max v'.max

/-- C71 for `StatMult` over `f32`/`f64` -/
theorem C71_statMult (f : Fmt) (hf : f.Normal) (tr tr' : Tree (statMult (Fl.ops f)))
    (hx : Tree.Extra (statMult.Bonus f) tr tr') (hn : tr'.NoReset)
    (hok : ∀ o ∈ tr'.leaves, statMult.NonNeg f o) (v v' : StatMult Fl) (hv : tr.run = .ok v)
    (hv' : tr'.run = .ok v') (out out' : Fl) (he : (statMult (Fl.ops f)).eval v = .ok out)
    (he' : (statMult (Fl.ops f)).eval v' = .ok out') :
    Fl.Le out out' := by
  have b1 : Fl.Below f (.fin 1) (.fin 1) := Fl.Below.one hf (by simp [Fl.Le]) (Fl.rep_one hf)
  have key : StatMult.Up f v v' := by
    refine Tree.Extra.lift (ok := statMult.NonNeg f) (StatMult.Up f) ⟨b1, Fl.BoundsUp.base f⟩ ?_ ?_ ?_ ?_ ?_ ?_
      hx v v' hn hok hv hv'
    · intro b hb
      exact ⟨Fl.Below.self hb.1 hb.2, Fl.BoundsUp.base f⟩
    · intro o v v' w w' hnb ho h e e'
      cases o with
      | add x => exact x.elim
      | or x => exact x.elim
      | not x => exact x.elim
      | base b => exact absurd trivial hnb
      | mul a => cases e; cases e'; exact ⟨h.mult.mul hf (Fl.Below.self ho.1 ho.2), h.bounds⟩
      | min b => cases e; cases e'; exact ⟨h.mult, h.bounds.min b⟩
      | max b => cases e; cases e'; exact ⟨h.mult, h.bounds.max b⟩
    · intro a a' b b' w w' h h' e e'
      cases e; cases e'
      exact ⟨h.mult.mul hf h'.mult, h.bounds.join h'.bounds⟩
    · intro o v v' w' hnb ho hB h e'
      cases o with
      | add x => exact x.elim
      | or x => exact x.elim
      | not x => exact x.elim
      | base b => exact absurd trivial hnb
      | mul a => cases e'; exact ⟨h.mult.mul_extra hf (Fl.Below.one hf hB ho.2), h.bounds⟩
      | min b => cases e'; exact ⟨h.mult, h.bounds.extraMin b⟩
      | max b => exact hB.elim
    · intro b hb hB
      exact ⟨Fl.Below.one hf hB hb.2, Fl.BoundsUp.base f⟩
    · intro v v' r w' h h' e'
      cases e'
      exact ⟨h.mult.mul_extra hf h'.mult, h.bounds.extraJoin h'.bounds⟩
  cases he; cases he'
  exact key.bounds.clamp key.mult

/-! ### Integers that do not wrap -/

theorem NumTy.fit_mono {t : NumTy} (h : t.ovf ≠ .wrap) {x y a b : Int} (hxy : x ≤ y) (ha : t.fit x = .ok a)
    (hb : t.fit y = .ok b) : a ≤ b := by
  have hlh := t.prim.lo_le_hi
  unfold NumTy.fit IntTy.InRange at *
  cases ho : t.ovf with
  | wrap => exact absurd ho h
  | panic =>
    simp only [ho] at *
    split at ha
    · split at hb
      · cases ha; cases hb; exact hxy
      · cases hb
    · cases ha
  | sat =>
    simp only [ho] at *
    split at ha <;> split at hb <;> cases ha <;> cases hb <;> (try split) <;> (try split) <;> omega

/-- `a ≤ a'`, both non-negative numbers of the type -/
structure NumTy.Up (t : NumTy) (a a' : Int) : Prop where
  nonneg : 0 ≤ a
  le : a ≤ a'
  right : t.prim.InRange a'

theorem NumTy.Up.left {t : NumTy} {a a' : Int} (h : t.Up a a') : t.prim.InRange a :=
  ⟨le_trans t.prim.lo_nonpos h.nonneg, h.le.trans h.right.2⟩

theorem NumTy.fit_range {t : NumTy} (h : t.ovf ≠ .wrap) {x a : Int} (ha : t.fit x = .ok a) : t.prim.InRange a := by
  have hlh := t.prim.lo_le_hi
  unfold NumTy.fit at ha
  split at ha
  · rename_i h; cases ha; exact h
  · cases ho : t.ovf with
    | wrap => exact absurd ho h
    | panic => simp only [ho] at ha; cases ha
    | sat =>
      simp only [ho] at ha
      split at ha <;> cases ha
      · exact ⟨le_rfl, hlh⟩
      · exact ⟨hlh, le_rfl⟩

theorem NumTy.Up.fit {t : NumTy} (h : t.ovf ≠ .wrap) {x y a b : Int} (h0 : 0 ≤ x) (hxy : x ≤ y)
    (ha : t.fit x = .ok a) (hb : t.fit y = .ok b) : t.Up a b :=
  ⟨NumTy.fit_mono h h0 (NumTy.fit_inRange ⟨t.prim.lo_nonpos, t.prim.inRange_zero.2⟩) ha, NumTy.fit_mono h hxy ha hb,
    NumTy.fit_range h hb⟩

theorem NumTy.Up.add {t : NumTy} (h : t.ovf ≠ .wrap) {x x' y y' a a' : Int} (h1 : t.Up x x') (h2 : t.Up y y')
    (ha : t.add x y = .ok a) (hb : t.add x' y' = .ok a') : t.Up a a' :=
  NumTy.Up.fit h (add_nonneg h1.nonneg h2.nonneg) (add_le_add h1.le h2.le) ha hb

theorem NumTy.Up.mul {t : NumTy} (h : t.ovf ≠ .wrap) {x x' y y' a a' : Int} (h1 : t.Up x x') (h2 : t.Up y y')
    (ha : t.mul x y = .ok a) (hb : t.mul x' y' = .ok a') : t.Up a a' :=
  NumTy.Up.fit h (mul_nonneg h1.nonneg h2.nonneg) (mul_le_mul h1.le h2.le h2.nonneg (h1.nonneg.trans h1.le)) ha hb

theorem NumTy.Up.add_extra {t : NumTy} (h : t.ovf ≠ .wrap) {x x' y a' : Int} (h1 : t.Up x x') (h2 : 0 ≤ y)
    (hb : t.add x' y = .ok a') : t.Up x a' :=
  NumTy.Up.fit h h1.nonneg (by linarith [h1.le]) (NumTy.fit_inRange h1.left) hb

theorem NumTy.Up.mul_extra {t : NumTy} (h : t.ovf ≠ .wrap) {x x' y a' : Int} (h1 : t.Up x x') (h2 : 1 ≤ y)
    (hb : t.mul x' y = .ok a') : t.Up x a' :=
  NumTy.Up.fit h h1.nonneg (by nlinarith [h1.le, h1.nonneg]) (NumTy.fit_inRange h1.left) hb

/-- lower bounds `lo ≤ lo'` and a shared upper bound of the type -/
structure NumTy.BoundsUp (t : NumTy) (lo lo' hi hi' : Int) : Prop where
  lo : lo ≤ lo'
  hi : hi = hi'
  capped : hi' ≤ t.prim.hi

theorem NumTy.BoundsUp.clamp {t : NumTy} {lo lo' hi hi' x x' : Int} (h : t.BoundsUp lo lo' hi hi') (hx : x ≤ x') :
    t.max (t.min x hi) lo ≤ t.max (t.min x' hi') lo' := by
  rw [h.hi]; simp only [NumTy.max_eq, NumTy.min_eq]
  exact max_le_max (min_le_min hx le_rfl) h.lo

/-- non-negative numbers of the type; bounds are arbitrary -/
def statInt.NonNeg (t : NumTy) : StatOp (statInt t) → Prop
  | .add a => 0 ≤ a ∧ t.prim.InRange a
  | .mul m => 0 ≤ m ∧ t.prim.InRange m
  | .base b => 0 ≤ b ∧ t.prim.InRange b
  | _ => True
/-- `Add`, `Mul` by at least one, `Min` -/
def statInt.Bonus (t : NumTy) : StatOp (statInt t) → Prop
  | .add a => 0 ≤ a
  | .mul m => 1 ≤ m
  | .base b => 0 ≤ b
  | .min _ => True
  | _ => False

structure StatInt.Up (t : NumTy) (v v' : StatInt) : Prop where
  addend : t.Up v.addend v'.addend
  mult : t.Up v.mult v'.mult
  bounds : t.BoundsUp v.min v'.min v.max v'.max

theorem NumTy.BoundsUp.opMin {t : NumTy} {lo lo' hi hi' : Int} (h : t.BoundsUp lo lo' hi hi') (b : Int) :
    t.BoundsUp (t.max lo b) (t.max lo' b) hi hi' :=
  ⟨by rw [NumTy.max_eq, NumTy.max_eq]; exact max_le_max h.lo le_rfl, h.hi, h.capped⟩
theorem NumTy.BoundsUp.opMax {t : NumTy} {lo lo' hi hi' : Int} (h : t.BoundsUp lo lo' hi hi') (b : Int) :
    t.BoundsUp lo lo' (t.min hi b) (t.min hi' b) :=
  ⟨h.lo, by rw [h.hi], by rw [NumTy.min_eq]; exact (min_le_left _ _).trans h.capped⟩
theorem NumTy.BoundsUp.join {t : NumTy} {lo lo' hi hi' lo2 lo2' hi2 hi2' : Int} (h : t.BoundsUp lo lo' hi hi')
    (h2 : t.BoundsUp lo2 lo2' hi2 hi2') :
    t.BoundsUp (t.max lo lo2) (t.max lo' lo2') (t.min hi hi2) (t.min hi' hi2') :=
  ⟨by rw [NumTy.max_eq, NumTy.max_eq]; exact max_le_max h.lo h2.lo, by rw [h.hi, h2.hi],
    by rw [NumTy.min_eq]; exact (min_le_left _ _).trans h.capped⟩
theorem NumTy.BoundsUp.extraMin {t : NumTy} {lo lo' hi hi' : Int} (h : t.BoundsUp lo lo' hi hi') (b : Int) :
    t.BoundsUp lo (t.max lo' b) hi hi' :=
  ⟨by rw [NumTy.max_eq]; exact h.lo.trans (le_max_left _ _), h.hi, h.capped⟩
theorem NumTy.BoundsUp.extraJoin {t : NumTy} {lo lo' hi hi' lo2 lo2' hi2' : Int} (h : t.BoundsUp lo lo' hi hi')
    (h2 : t.BoundsUp lo2 lo2' t.maxValue hi2') :
    t.BoundsUp lo (t.max lo' lo2') hi (t.min hi' hi2') := by
  refine ⟨by rw [NumTy.max_eq]; exact h.lo.trans (le_max_left _ _), ?_, ?_⟩
  · rw [← h2.hi, NumTy.min_eq, h.hi]
    exact (min_eq_left h.capped).symm
  · rw [NumTy.min_eq]; exact (min_le_left _ _).trans h.capped
theorem NumTy.BoundsUp.init (t : NumTy) : t.BoundsUp t.minValue t.minValue t.maxValue t.maxValue :=
  ⟨le_rfl, rfl, le_rfl⟩

theorem NumTy.Up.refl {t : NumTy} {a : Int} (h0 : 0 ≤ a) (h : t.prim.InRange a) : t.Up a a := ⟨h0, le_rfl, h⟩

/-- C71 for `StatInt` whose arithmetic does not wrap (overflow checks, or `Saturating<T>`): if all addends and
multipliers are non-negative, extra bonuses anywhere never lower the result.  No condition on the size: a
saturated result stays saturated. -/
theorem C71_statInt (t : NumTy) (h : t.ovf ≠ .wrap) (hb : 1 < t.prim.bits) (tr tr' : Tree (statInt t))
    (hx : Tree.Extra (statInt.Bonus t) tr tr') (hn : tr'.NoReset)
    (hok : ∀ o ∈ tr'.leaves, statInt.NonNeg t o) (v v' : StatInt) (hv : tr.run = .ok v) (hv' : tr'.run = .ok v')
    (out out' : Int) (he : (statInt t).eval v = .ok out) (he' : (statInt t).eval v' = .ok out') : out ≤ out' := by
  have u0 : t.Up 0 0 := .refl le_rfl t.prim.inRange_zero
  have u1 : t.Up 1 1 := .refl zero_le_one (t.prim.inRange_one hb)
  have key : StatInt.Up t v v' := by
    refine Tree.Extra.lift (ok := statInt.NonNeg t) (StatInt.Up t) ⟨u0, u1, .init t⟩ ?_ ?_ ?_ ?_ ?_ ?_
      hx v v' hn hok hv hv'
    · intro b hb
      exact ⟨.refl hb.1 hb.2, u1, .init t⟩
    · intro o v v' w w' hnb ho k e e'
      cases o with
      | or x => exact x.elim
      | not x => exact x.elim
      | base b => exact absurd trivial hnb
      | add a =>
        obtain ⟨x, e1, e⟩ := Res.bind_eq_ok.1 e
        obtain ⟨x', e1', e'⟩ := Res.bind_eq_ok.1 e'
        cases e; cases e'
        exact ⟨k.addend.add h (.refl ho.1 ho.2) e1 e1', k.mult, k.bounds⟩
      | mul a =>
        obtain ⟨x, e1, e⟩ := Res.bind_eq_ok.1 e
        obtain ⟨x', e1', e'⟩ := Res.bind_eq_ok.1 e'
        cases e; cases e'
        exact ⟨k.addend, k.mult.mul h (.refl ho.1 ho.2) e1 e1', k.bounds⟩
      | min b => cases e; cases e'; exact ⟨k.addend, k.mult, k.bounds.opMin b⟩
      | max b => cases e; cases e'; exact ⟨k.addend, k.mult, k.bounds.opMax b⟩
    · intro a a' b b' w w' k k' e e'
      obtain ⟨x, e1, e⟩ := Res.bind_eq_ok.1 e
      obtain ⟨y, e2, e⟩ := Res.bind_eq_ok.1 e
      obtain ⟨x', e1', e'⟩ := Res.bind_eq_ok.1 e'
      obtain ⟨y', e2', e'⟩ := Res.bind_eq_ok.1 e'
      cases e; cases e'
      exact ⟨k.addend.add h k'.addend e1 e1', k.mult.mul h k'.mult e2 e2', k.bounds.join k'.bounds⟩
    · intro o v v' w' hnb ho hB k e'
      cases o with
      | or x => exact x.elim
      | not x => exact x.elim
      | base b => exact absurd trivial hnb
      | add a =>
        obtain ⟨x', e1', e'⟩ := Res.bind_eq_ok.1 e'
        cases e'
        exact ⟨k.addend.add_extra h ho.1 e1', k.mult, k.bounds⟩
      | mul a =>
        obtain ⟨x', e1', e'⟩ := Res.bind_eq_ok.1 e'
        cases e'
        exact ⟨k.addend, k.mult.mul_extra h hB e1', k.bounds⟩
      | min b => cases e'; exact ⟨k.addend, k.mult, k.bounds.extraMin b⟩
      | max b => exact hB.elim
    · intro b hb _
      exact ⟨⟨le_rfl, hb.1, hb.2⟩, u1, .init t⟩
    · intro v v' r w' k k' e'
      obtain ⟨x', e1', e'⟩ := Res.bind_eq_ok.1 e'
      obtain ⟨y', e2', e'⟩ := Res.bind_eq_ok.1 e'
      cases e'
      exact ⟨k.addend.add_extra h k'.addend.le e1', k.mult.mul_extra h k'.mult.le e2', k.bounds.extraJoin k'.bounds⟩
  obtain ⟨x, e1, e⟩ := Res.bind_eq_ok.1 he
  obtain ⟨x', e1', e'⟩ := Res.bind_eq_ok.1 he'
  cases e; cases e'
  exact key.bounds.clamp (key.addend.mul h key.mult e1 e1').le

/-! ### Integers with a float multiplier -/

/-- rounding to whole numbers is monotone on floats, infinities included -/
theorem Fl.apply_mono {f : Fmt} (hf : f.Normal) (R : Rounding) {x y r s : Fl} (h : Le x y)
    (hr : R.apply (ops f) x = .ok r) (hs : R.apply (ops f) y = .ok s) : Le r s := by
  have inf : ∀ x r : Fl, (∀ q, x ≠ .fin q) → R.apply (ops f) x = .ok r → r = x := by
    intro x r hx e
    rw [C31_floats_special f hf R x hx] at e
    exact (Except.ok.inj e).symm
  have fin : ∀ (q : ℚ) (r : Fl), R.apply (ops f) (.fin q) = .ok r → ∃ z : ℤ, r = .fin z ∧ Rounds R q z := by
    intro q r e
    obtain ⟨z, e', hz⟩ := C31_floats f hf R q
    rw [e'] at e
    exact ⟨z, (Except.ok.inj e).symm, hz⟩
  cases x with
  | nan => exact h.elim
  | ninf =>
    obtain rfl := inf _ _ (by simp) hr
    cases y with
    | nan => exact h.elim
    | ninf => obtain rfl := inf _ _ (by simp) hs; exact h
    | pinf => obtain rfl := inf _ _ (by simp) hs; exact h
    | fin q => obtain ⟨z, rfl, -⟩ := fin _ _ hs; trivial
  | pinf =>
    obtain rfl := inf _ _ (by simp) hr
    cases y with
    | pinf => obtain rfl := inf _ _ (by simp) hs; exact h
    | _ => exact h.elim
  | fin p =>
    obtain ⟨z, rfl, hz⟩ := fin _ _ hr
    cases y with
    | nan => exact h.elim
    | ninf => exact h.elim
    | pinf => obtain rfl := inf _ _ (by simp) hs; trivial
    | fin q =>
      obtain ⟨w, rfl, hw⟩ := fin _ _ hs
      have : z ≤ w := Frac.rounds_mono R h hz hw
      change (z : ℚ) ≤ w
      exact_mod_cast this

theorem Fl.truncQ_mono {x y : ℚ} (h : x ≤ y) : truncQ x ≤ truncQ y :=
  Frac.rounds_mono .truncate h (truncQ_rounds x) (truncQ_rounds y)

/-- the cast back to an integer is monotone -/
theorem Fl.toInt_mono (t : IntTy) {x y : Fl} (h : Le x y) : toInt t x ≤ toInt t y := by
  have hlh := t.lo_le_hi
  cases x <;> cases y <;> simp_all [Le, toInt]
  have := truncQ_mono h
  omega

/-- `x` counts for no more than `x'` when cast to an integer: NaN counts as zero there.  Both are non-negative or
NaN. -/
structure Fl.Held (f : Fmt) (x x' : Fl) : Prop where
  right : Le (.fin 0) x' ∨ x' = .nan
  cmp : x = .nan ∨ x = .fin 0 ∨ (x' = .pinf ∧ Le (.fin 0) x) ∨ ∃ r r', x = .fin r ∧ x' = .fin r' ∧ 0 < r ∧ r ≤ r'
  of : x.Of f

namespace Fl
theorem Held.of_le {f : Fmt} {x x' : Fl} (h0 : Le (.fin 0) x) (h : Le x x') (ho : x.Of f) : Held f x x' := by
  refine ⟨.inl (h0.trans h), ?_, ho⟩
  cases x <;> cases x' <;> simp_all [Le]
  rename_i r r'
  rcases h0.eq_or_lt with e | e
  · exact .inl e.symm
  · exact .inr e

theorem Held.rnd {f : Fmt} (hf : f.Normal) {x y : ℚ} (h0 : 0 ≤ x) (h : x ≤ y) : Held f (f.rnd x) (f.rnd y) := by
  have h1 := rnd_mono hf h0
  rw [show f.rnd 0 = .fin 0 by simp [Fmt.rnd]] at h1
  exact .of_le h1 (rnd_mono hf h) (of_rnd hf x)

theorem mul_nonneg' {f : Fmt} (hf : f.Normal) {x y : Fl} (hx : Le (.fin 0) x ∨ x = .nan)
    (hy : Le (.fin 0) y ∨ y = .nan) : Le (.fin 0) (Fl.mul f x y) ∨ Fl.mul f x y = .nan := by
  have inf : ∀ b : Fl, Le (.fin 0) b ∨ b = .nan → Le (.fin 0) (infMul true b) ∨ infMul true b = .nan := by
    rintro b (h | rfl)
    · cases b with
      | nan => exact h.elim
      | ninf => exact h.elim
      | pinf => exact .inl trivial
      | fin q =>
        by_cases h0 : q = 0
        · right; simp [infMul, h0]
        · left
          have : 0 < q := lt_of_le_of_ne h (Ne.symm h0)
          simp [infMul, h0, this, Le]
    · exact .inr rfl
  rcases hx with hx | rfl
  · cases x with
    | nan => exact hx.elim
    | ninf => exact hx.elim
    | pinf => exact inf y hy
    | fin a =>
      rcases hy with hy | rfl
      · cases y with
        | nan => exact hy.elim
        | ninf => exact hy.elim
        | pinf => exact inf (.fin a) (.inl hx)
        | fin b =>
          have := rnd_mono hf (mul_nonneg hx hy)
          rw [show f.rnd 0 = .fin 0 by simp [Fmt.rnd]] at this
          exact .inl this
      · exact .inr rfl
  · exact .inr rfl

theorem zero_mul_bot (f : Fmt) (y : Fl) : Fl.mul f (.fin 0) y = .nan ∨ Fl.mul f (.fin 0) y = .fin 0 := by
  cases y <;> simp [Fl.mul, infMul, Fmt.rnd]

theorem Held.mul {f : Fmt} (hf : f.Normal) {x x' y y' : Fl} (h : Held f x x') (k : Held f y y') :
    Held f (Fl.mul f x y) (Fl.mul f x' y') := by
  refine ⟨mul_nonneg' hf h.right k.right, ?_, of_mul hf x y⟩
  rcases h.cmp with rfl | rfl | h1
  · exact .inl rfl
  · rcases zero_mul_bot f y with e | e
    · exact .inl e
    · exact .inr (.inl e)
  rcases k.cmp with rfl | rfl | k1
  · rw [Fl.mul_comm]; exact .inl rfl
  · rw [Fl.mul_comm]
    rcases zero_mul_bot f x with e | e
    · exact .inl e
    · exact .inr (.inl e)
  have hx : Le (.fin 0) x := by
    rcases h1 with h1 | ⟨r, r', rfl, -, h0, -⟩
    · exact h1.2
    · exact h0.le
  have hy : Le (.fin 0) y := by
    rcases k1 with k1 | ⟨r, r', rfl, -, h0, -⟩
    · exact k1.2
    · exact h0.le
  have hxy := mul_nonneg' hf (.inl hx) (.inl hy)
  rcases hxy with hxy | hxy
  · rcases h1 with ⟨rfl, -⟩ | ⟨r, r', rfl, rfl, r0, rle⟩
    · -- infinity times something positive
      right; right; left
      refine ⟨?_, hxy⟩
      rcases k1 with ⟨rfl, -⟩ | ⟨s, s', rfl, rfl, s0, sle⟩
      · rfl
      · have : 0 < s' := s0.trans_le sle
        simp [Fl.mul, infMul, this, this.ne']
    · rcases k1 with ⟨rfl, -⟩ | ⟨s, s', rfl, rfl, s0, sle⟩
      · right; right; left
        have : 0 < r' := r0.trans_le rle
        refine ⟨?_, hxy⟩
        simp [Fl.mul, infMul, this, this.ne']
      · exact (Held.rnd hf (mul_nonneg r0.le s0.le) (mul_le_mul rle sle s0.le (r0.le.trans rle))).cmp
  · exact .inl hxy

theorem Held.mul_extra {f : Fmt} (hf : f.Normal) {x x' y : Fl} (h : Held f x x') (k : Held f (.fin 1) y) :
    Held f x (Fl.mul f x' y) := by
  have := h.mul hf k
  rwa [Fl.mul_one hf h.of] at this

theorem Held.cast {f : Fmt} (hf : f.Normal) (R : Rounding) (t : IntTy) {x x' r r' : Fl} (h : Held f x x')
    (e : R.apply (ops f) x = .ok r) (e' : R.apply (ops f) x' = .ok r') : toInt t r ≤ toInt t r' := by
  have z0 : ∀ q, R.apply (ops f) (.fin 0) = .ok q → q = .fin 0 := by
    intro q e
    obtain ⟨z, e1, hz⟩ := C31_floats f hf R 0
    rw [e1] at e
    have := Frac.rounds_unique R hz (by simpa using Frac.rounds_int R 0)
    rw [this] at e
    simpa using (Except.ok.inj e).symm
  have nan0 : ∀ q, R.apply (ops f) .nan = .ok q → q = .nan := by
    intro q e
    rw [C31_floats_special f hf R .nan (by simp)] at e
    exact (Except.ok.inj e).symm
  have t0 : toInt t (.fin 0) = 0 := by
    have h1 := t.lo_nonpos
    have h2 := t.inRange_zero.2
    simp only [Fl.toInt, show truncQ 0 = 0 by simp [truncQ]]
    omega
  have hz : 0 ≤ toInt t r' := by
    rcases h.right with h1 | rfl
    · obtain ⟨z, e1, -⟩ := C31_floats f hf R 0
      have h2 := toInt_mono t (apply_mono hf R h1 e1 e')
      rwa [z0 _ e1, t0] at h2
    · rw [nan0 _ e']; simp [Fl.toInt]
  rcases h.cmp with rfl | rfl | ⟨rfl, h1⟩ | ⟨a, a', rfl, rfl, -, hle⟩
  · rw [nan0 _ e]; exact hz
  · rw [z0 _ e, t0]; exact hz
  · refine toInt_mono t (apply_mono hf R ?_ e e')
    cases x <;> simp_all [Le]
  · exact toInt_mono t (apply_mono hf R (x := .fin a) (y := .fin a') hle e e')

theorem Held.one {f : Fmt} (hf : f.Normal) {x : Fl} (h : Le (.fin 1) x) : Held f (.fin 1) x :=
  .of_le (by simp [Le]) h (rep_one hf)
theorem Held.self {f : Fmt} {x : Fl} (h : Le (.fin 0) x) (ho : x.Of f) : Held f x x := .of_le h (.refl h.right) ho
end Fl

/-- non-negative operands; bounds are arbitrary -/
def statIntFl.NonNeg (t : NumTy) (f : Fmt) (R : Rounding) : StatOp (statIntFl t f R) → Prop
  | .add a => 0 ≤ a ∧ t.prim.InRange a
  | .mul m => Fl.Le (.fin 0) m ∧ m.Of f
  | .base b => 0 ≤ b ∧ t.prim.InRange b
  | _ => True
/-- `Add`, `Mul` by at least one, `Min` -/
def statIntFl.Bonus (t : NumTy) (f : Fmt) (R : Rounding) : StatOp (statIntFl t f R) → Prop
  | .add a => 0 ≤ a
  | .mul m => Fl.Le (.fin 1) m
  | .base b => 0 ≤ b
  | .min _ => True
  | _ => False

structure StatIntFloatMul.Up (t : NumTy) (f : Fmt) (v v' : StatIntFloatMul Fl) : Prop where
  addend : t.Up v.addend v'.addend
  mult : Fl.Held f v.mult v'.mult
  bounds : t.BoundsUp v.min v'.min v.max v'.max

/-- C71 for `StatIntFloatMul` (integer arithmetic that does not wrap), in each rounding mode, also when
multipliers overflow to infinity or turn NaN (which is cast to zero). -/
theorem C71_statIntFloatMul (t : NumTy) (h : t.ovf ≠ .wrap) (f : Fmt) (hf : f.Normal) (R : Rounding)
    (tr tr' : Tree (statIntFl t f R)) (hx : Tree.Extra (statIntFl.Bonus t f R) tr tr') (hn : tr'.NoReset)
    (hok : ∀ o ∈ tr'.leaves, statIntFl.NonNeg t f R o) (v v' : StatIntFloatMul Fl) (hv : tr.run = .ok v)
    (hv' : tr'.run = .ok v') (out out' : Int) (he : (statIntFl t f R).eval v = .ok out)
    (he' : (statIntFl t f R).eval v' = .ok out') : out ≤ out' := by
  have u0 : t.Up 0 0 := .refl le_rfl t.prim.inRange_zero
  have b1 : Fl.Held f (.fin 1) (.fin 1) := Fl.Held.one hf (by simp [Fl.Le])
  have key : StatIntFloatMul.Up t f v v' := by
    refine Tree.Extra.lift (ok := statIntFl.NonNeg t f R) (StatIntFloatMul.Up t f) ⟨u0, b1, .init t⟩ ?_ ?_ ?_ ?_ ?_ ?_
      hx v v' hn hok hv hv'
    · intro b hb
      exact ⟨.refl hb.1 hb.2, b1, .init t⟩
    · intro o v v' w w' hnb ho k e e'
      cases o with
      | or x => exact x.elim
      | not x => exact x.elim
      | base b => exact absurd trivial hnb
      | add a =>
        obtain ⟨x, e1, e⟩ := Res.bind_eq_ok.1 e
        obtain ⟨x', e1', e'⟩ := Res.bind_eq_ok.1 e'
        cases e; cases e'
        exact ⟨k.addend.add h (.refl ho.1 ho.2) e1 e1', k.mult, k.bounds⟩
      | mul a => cases e; cases e'; exact ⟨k.addend, k.mult.mul hf (Fl.Held.self ho.1 ho.2), k.bounds⟩
      | min b => cases e; cases e'; exact ⟨k.addend, k.mult, k.bounds.opMin b⟩
      | max b => cases e; cases e'; exact ⟨k.addend, k.mult, k.bounds.opMax b⟩
    · intro a a' b b' w w' k k' e e'
      obtain ⟨x, e1, e⟩ := Res.bind_eq_ok.1 e
      obtain ⟨x', e1', e'⟩ := Res.bind_eq_ok.1 e'
      cases e; cases e'
      exact ⟨k.addend.add h k'.addend e1 e1', k.mult.mul hf k'.mult, k.bounds.join k'.bounds⟩
    · intro o v v' w' hnb ho hB k e'
      cases o with
      | or x => exact x.elim
      | not x => exact x.elim
      | base b => exact absurd trivial hnb
      | add a =>
        obtain ⟨x', e1', e'⟩ := Res.bind_eq_ok.1 e'
        cases e'
        exact ⟨k.addend.add_extra h ho.1 e1', k.mult, k.bounds⟩
      | mul a => cases e'; exact ⟨k.addend, k.mult.mul_extra hf (Fl.Held.one hf hB), k.bounds⟩
      | min b => cases e'; exact ⟨k.addend, k.mult, k.bounds.extraMin b⟩
      | max b => exact hB.elim
    · intro b hb _
      exact ⟨⟨le_rfl, hb.1, hb.2⟩, b1, .init t⟩
    · intro v v' r w' k k' e'
      obtain ⟨x', e1', e'⟩ := Res.bind_eq_ok.1 e'
      cases e'
      exact ⟨k.addend.add_extra h k'.addend.le e1', k.mult.mul_extra hf k'.mult, k.bounds.extraJoin k'.bounds⟩
  have q0 : (0 : ℚ) ≤ v.addend := by exact_mod_cast key.addend.nonneg
  have qle : (v.addend : ℚ) ≤ v'.addend := by exact_mod_cast key.addend.le
  simp only [Res.bind_eq_ok] at he he'
  obtain ⟨x, e1, r, e2, e⟩ := he
  obtain ⟨x', e1', r', e2', e'⟩ := he'
  cases e; cases e'; cases e1; cases e1'
  exact key.bounds.clamp (Fl.Held.cast hf R t.prim ((Fl.Held.rnd hf q0 qle).mul hf key.mult) e2 e2')

/-! ### Bounds, whatever the signs -/

/-- one bound operation more: lower bounds if `up`, upper bounds otherwise -/
def StatOp.IsBound {V : Type} {D : StatValue V} (up : Bool) : StatOp D → Prop
  | .min _ => up = true
  | .max _ => up = false
  | _ => False

/-- order in the direction of `up` -/
def Fl.Dir (up : Bool) (a b : Fl) : Prop := if up then Le a b else Le b a

/-- how the bounds of two assemblies compare that differ by bound operations -/
structure Fl.Moved (f : Fmt) (up : Bool) (lo lo' hi hi' : Fl) : Prop where
  lo : if up then Le lo lo' else lo = lo' ∧ lo ≠ .nan
  hi : if up then hi = hi' ∧ hi ≠ .nan else Le hi' hi
  capped : Capped f hi'
  floored : Floored f lo'

namespace Fl
theorem max_ne_nan {a : Fl} (h : a ≠ .nan) (b : Fl) : Fl.max a b ≠ .nan := (le_max_left h b).right
theorem min_ne_nan {a : Fl} (h : a ≠ .nan) (b : Fl) : Fl.min a b ≠ .nan := (min_le_left h b).left

theorem Moved.init (f : Fmt) (up : Bool) :
    Moved f up (.fin (-f.maxVal)) (.fin (-f.maxVal)) (.fin f.maxVal) (.fin f.maxVal) := by
  refine ⟨?_, ?_, Capped.base f, Floored.base f⟩ <;> cases up <;> simp [Le]
theorem Moved.opMin {f : Fmt} {up : Bool} {lo lo' hi hi' : Fl} (h : Moved f up lo lo' hi hi') (b : Fl) :
    Moved f up (Fl.max lo b) (Fl.max lo' b) hi hi' := by
  obtain ⟨h1, h2, h3, h4⟩ := h
  refine ⟨?_, h2, h3, h4.max b⟩
  cases up
  · exact ⟨by rw [h1.1], max_ne_nan h1.2 b⟩
  · exact max_mono_left b h1
theorem Moved.opMax {f : Fmt} {up : Bool} {lo lo' hi hi' : Fl} (h : Moved f up lo lo' hi hi') (b : Fl) :
    Moved f up lo lo' (Fl.min hi b) (Fl.min hi' b) := by
  obtain ⟨h1, h2, h3, h4⟩ := h
  refine ⟨h1, ?_, h3.min b, h4⟩
  cases up
  · exact min_mono b h2
  · exact ⟨by rw [h2.1], min_ne_nan h2.2 b⟩
theorem Moved.join {f : Fmt} {up : Bool} {lo lo' hi hi' lo2 lo2' hi2 hi2' : Fl} (h : Moved f up lo lo' hi hi')
    (k : Moved f up lo2 lo2' hi2 hi2') :
    Moved f up (Fl.max lo lo2) (Fl.max lo' lo2') (Fl.min hi hi2) (Fl.min hi' hi2') := by
  obtain ⟨h1, h2, h3, h4⟩ := h
  obtain ⟨k1, k2, k3, k4⟩ := k
  refine ⟨?_, ?_, h3.min _, h4.max _⟩
  · cases up
    · exact ⟨by rw [h1.1, k1.1], max_ne_nan h1.2 _⟩
    · exact max_mono h1 k1
  · cases up
    · exact min_mono₂ h2 k2
    · exact ⟨by rw [h2.1, k2.1], min_ne_nan h2.2 _⟩
theorem Moved.extraMin {f : Fmt} {lo lo' hi hi' : Fl} (h : Moved f true lo lo' hi hi') (b : Fl) :
    Moved f true lo (Fl.max lo' b) hi hi' :=
  ⟨Le.trans h.lo (le_max_left (Le.right h.lo) b), h.hi, h.capped, h.floored.max b⟩
theorem Moved.extraMax {f : Fmt} {lo lo' hi hi' : Fl} (h : Moved f false lo lo' hi hi') (b : Fl) :
    Moved f false lo lo' hi (Fl.min hi' b) :=
  ⟨h.lo, Le.trans (min_le_left (Le.left h.hi) b) h.hi, h.capped.min b, h.floored⟩
theorem Moved.extraJoin {f : Fmt} {up : Bool} {lo lo' hi hi' lo2' hi2' : Fl} (h : Moved f up lo lo' hi hi')
    (k : Moved f up (.fin (-f.maxVal)) lo2' (.fin f.maxVal) hi2') :
    Moved f up lo (Fl.max lo' lo2') hi (Fl.min hi' hi2') := by
  obtain ⟨h1, h2, h3, h4⟩ := h
  obtain ⟨k1, k2, k3, k4⟩ := k
  refine ⟨?_, ?_, h3.min _, h4.max _⟩
  · cases up
    · rw [← k1.1, h4]; exact h1
    · exact Le.trans h1 (le_max_left (Le.right h1) _)
  · cases up
    · exact Le.trans (min_le_left (Le.left h2) _) h2
    · rw [← k2.1, h3]; exact h2
theorem Moved.clamp {f : Fmt} {up : Bool} {lo lo' hi hi' : Fl} (h : Moved f up lo lo' hi hi') (x : Fl) :
    Dir up (Fl.max (Fl.min x hi) lo) (Fl.max (Fl.min x hi') lo') := by
  obtain ⟨h1, h2, -, -⟩ := h
  have aux : ∀ {a b : Fl}, Le a b → Le (Fl.min x a) (Fl.min x b) := by
    intro a b hab
    rw [Fl.min_comm x a, Fl.min_comm x b]; exact min_mono x hab
  cases up
  · change Le _ _
    rw [h1.1]; exact max_mono_left _ (aux h2)
  · change Le _ _
    rw [h2.1]
    refine max_mono (Le.refl ?_) h1
    rw [Fl.min_comm]; exact min_ne_nan (h2.1 ▸ h2.2) _
end Fl

/-- the same numbers, bounds moved -/
structure StatFloat.Moved (f : Fmt) (up : Bool) (v v' : StatFloat Fl) : Prop where
  addend : v.addend = v'.addend
  of_addend : v'.addend.Of f
  mult : v.mult = v'.mult
  of_mult : v'.mult.Of f
  bounds : Fl.Moved f up v.min v'.min v.max v'.max

/-- C71: in a `StatFloat` over `f32`/`f64`, extra `Min` operations anywhere never lower the result and extra `Max`
operations never raise it, whatever the other operands (NaN and infinities included). -/
theorem C71_statFloat_bounds (f : Fmt) (hf : f.Normal) (up : Bool) (tr tr' : Tree (statFloat (Fl.ops f)))
    (hx : Tree.Extra (StatOp.IsBound up) tr tr') (hn : tr'.NoReset) (hok : ∀ o ∈ tr'.leaves, statFloat.okFl o)
    (v v' : StatFloat Fl) (hv : tr.run = .ok v) (hv' : tr'.run = .ok v') (out out' : Fl)
    (he : (statFloat (Fl.ops f)).eval v = .ok out) (he' : (statFloat (Fl.ops f)).eval v' = .ok out') :
    if up then Fl.Le out out' else Fl.Le out' out := by
  have r0 : (Fl.fin 0).Of f := Fl.rep_zero hf
  have r1 : (Fl.fin 1).Of f := Fl.rep_one hf
  have key : StatFloat.Moved f up v v' := by
    refine Tree.Extra.lift (ok := statFloat.okFl) (StatFloat.Moved f up) ⟨rfl, r0, rfl, r1, .init f up⟩ ?_ ?_ ?_ ?_ ?_ ?_
      hx v v' hn hok hv hv'
    · intro b hb
      exact ⟨rfl, hb, rfl, r1, .init f up⟩
    · intro o v v' w w' hnb ho h e e'
      cases o with
      | or x => exact x.elim
      | not x => exact x.elim
      | base b => exact absurd trivial hnb
      | add a => cases e; cases e'; exact ⟨congrArg (Fl.add f · a) h.addend, Fl.of_add hf _ _, h.mult, h.of_mult, h.bounds⟩
      | mul a => cases e; cases e'; exact ⟨h.addend, h.of_addend, congrArg (Fl.mul f · a) h.mult, Fl.of_mul hf _ _, h.bounds⟩
      | min b => cases e; cases e'; exact ⟨h.addend, h.of_addend, h.mult, h.of_mult, h.bounds.opMin b⟩
      | max b => cases e; cases e'; exact ⟨h.addend, h.of_addend, h.mult, h.of_mult, h.bounds.opMax b⟩
    · intro a a' b b' w w' h h' e e'
      cases e; cases e'
      exact ⟨congrArg₂ (Fl.add f) h.addend h'.addend, Fl.of_add hf _ _, congrArg₂ (Fl.mul f) h.mult h'.mult, Fl.of_mul hf _ _, h.bounds.join h'.bounds⟩
    · intro o v v' w' hnb ho hB h e'
      cases o with
      | min b => cases e'; subst hB; exact ⟨h.addend, h.of_addend, h.mult, h.of_mult, h.bounds.extraMin b⟩
      | max b => cases e'; subst hB; exact ⟨h.addend, h.of_addend, h.mult, h.of_mult, h.bounds.extraMax b⟩
      | _ => exact hB.elim
    · intro b _ hB
      exact hB.elim
    · intro v v' r w' h h' e'
      cases e'
      exact ⟨by rw [h.addend]; exact ((congrArg (Fl.add f _) h'.addend.symm).trans (Fl.add_zero hf h.of_addend)).symm, Fl.of_add hf _ _, by rw [h.mult]; exact ((congrArg (Fl.mul f _) h'.mult.symm).trans (Fl.mul_one hf h.of_mult)).symm, Fl.of_mul hf _ _, h.bounds.extraJoin h'.bounds⟩
  cases he; cases he'
  rw [key.addend, key.mult]
  exact key.bounds.clamp _

/-- the same numbers, bounds moved -/
structure StatFloatAdditive.Moved (f : Fmt) (up : Bool) (v v' : StatFloatAdditive Fl) : Prop where
  addend : v.addend = v'.addend
  of_addend : v'.addend.Of f
  mult : v.mult = v'.mult
  of_mult : v'.mult.Of f
  bounds : Fl.Moved f up v.min v'.min v.max v'.max

/-- C71: in a `StatFloatAdditive` over `f32`/`f64`, extra `Min` operations anywhere never lower the result and extra `Max`
operations never raise it, whatever the other operands (NaN and infinities included). -/
theorem C71_statFloatAdditive_bounds (f : Fmt) (hf : f.Normal) (up : Bool) (tr tr' : Tree (statFloatAdditive (Fl.ops f)))
    (hx : Tree.Extra (StatOp.IsBound up) tr tr') (hn : tr'.NoReset) (hok : ∀ o ∈ tr'.leaves, statFloatAdditive.okFl o)
    (v v' : StatFloatAdditive Fl) (hv : tr.run = .ok v) (hv' : tr'.run = .ok v') (out out' : Fl)
    (he : (statFloatAdditive (Fl.ops f)).eval v = .ok out) (he' : (statFloatAdditive (Fl.ops f)).eval v' = .ok out') :
    if up then Fl.Le out out' else Fl.Le out' out := by
  have r0 : (Fl.fin 0).Of f := Fl.rep_zero hf
  have r1 : (Fl.fin 1).Of f := Fl.rep_one hf
  have key : StatFloatAdditive.Moved f up v v' := by
    refine Tree.Extra.lift (ok := statFloatAdditive.okFl) (StatFloatAdditive.Moved f up) ⟨rfl, r0, rfl, r0, .init f up⟩ ?_ ?_ ?_ ?_ ?_ ?_
      hx v v' hn hok hv hv'
    · intro b hb
      exact ⟨rfl, hb, rfl, r0, .init f up⟩
    · intro o v v' w w' hnb ho h e e'
      cases o with
      | or x => exact x.elim
      | not x => exact x.elim
      | base b => exact absurd trivial hnb
      | add a => cases e; cases e'; exact ⟨congrArg (Fl.add f · a) h.addend, Fl.of_add hf _ _, h.mult, h.of_mult, h.bounds⟩
      | mul a => cases e; cases e'; exact ⟨h.addend, h.of_addend, congrArg (Fl.add f · a) h.mult, Fl.of_add hf _ _, h.bounds⟩
      | min b => cases e; cases e'; exact ⟨h.addend, h.of_addend, h.mult, h.of_mult, h.bounds.opMin b⟩
      | max b => cases e; cases e'; exact ⟨h.addend, h.of_addend, h.mult, h.of_mult, h.bounds.opMax b⟩
    · intro a a' b b' w w' h h' e e'
      cases e; cases e'
      exact ⟨congrArg₂ (Fl.add f) h.addend h'.addend, Fl.of_add hf _ _, congrArg₂ (Fl.add f) h.mult h'.mult, Fl.of_add hf _ _, h.bounds.join h'.bounds⟩
    · intro o v v' w' hnb ho hB h e'
      cases o with
      | min b => cases e'; subst hB; exact ⟨h.addend, h.of_addend, h.mult, h.of_mult, h.bounds.extraMin b⟩
      | max b => cases e'; subst hB; exact ⟨h.addend, h.of_addend, h.mult, h.of_mult, h.bounds.extraMax b⟩
      | _ => exact hB.elim
    · intro b _ hB
      exact hB.elim
    · intro v v' r w' h h' e'
      cases e'
      exact ⟨by rw [h.addend]; exact ((congrArg (Fl.add f _) h'.addend.symm).trans (Fl.add_zero hf h.of_addend)).symm, Fl.of_add hf _ _, by rw [h.mult]; exact ((congrArg (Fl.add f _) h'.mult.symm).trans (Fl.add_zero hf h.of_mult)).symm, Fl.of_add hf _ _, h.bounds.extraJoin h'.bounds⟩
  cases he; cases he'
  rw [key.addend, key.mult]
  exact key.bounds.clamp _

/-- the same numbers, bounds moved -/
structure StatMult.Moved (f : Fmt) (up : Bool) (v v' : StatMult Fl) : Prop where
  mult : v.mult = v'.mult
  of_mult : v'.mult.Of f
  bounds : Fl.Moved f up v.min v'.min v.max v'.max

/-- C71: in a `StatMult` over `f32`/`f64`, extra `Min` operations anywhere never lower the result and extra `Max`
operations never raise it, whatever the other operands (NaN and infinities included). -/
theorem C71_statMult_bounds (f : Fmt) (hf : f.Normal) (up : Bool) (tr tr' : Tree (statMult (Fl.ops f)))
    (hx : Tree.Extra (StatOp.IsBound up) tr tr') (hn : tr'.NoReset) (hok : ∀ o ∈ tr'.leaves, statMult.okFl o)
    (v v' : StatMult Fl) (hv : tr.run = .ok v) (hv' : tr'.run = .ok v') (out out' : Fl)
    (he : (statMult (Fl.ops f)).eval v = .ok out) (he' : (statMult (Fl.ops f)).eval v' = .ok out') :
    if up then Fl.Le out out' else Fl.Le out' out := by
  have r0 : (Fl.fin 0).Of f := Fl.rep_zero hf
  have r1 : (Fl.fin 1).Of f := Fl.rep_one hf
  have key : StatMult.Moved f up v v' := by
    refine Tree.Extra.lift (ok := statMult.okFl) (StatMult.Moved f up) ⟨rfl, r1, .init f up⟩ ?_ ?_ ?_ ?_ ?_ ?_
      hx v v' hn hok hv hv'
    · intro b hb
      exact ⟨rfl, hb, .init f up⟩
    · intro o v v' w w' hnb ho h e e'
      cases o with
      | or x => exact x.elim
      | not x => exact x.elim
      | base b => exact absurd trivial hnb
      | add x => exact x.elim
      | mul a => cases e; cases e'; exact ⟨congrArg (Fl.mul f · a) h.mult, Fl.of_mul hf _ _, h.bounds⟩
      | min b => cases e; cases e'; exact ⟨h.mult, h.of_mult, h.bounds.opMin b⟩
      | max b => cases e; cases e'; exact ⟨h.mult, h.of_mult, h.bounds.opMax b⟩
    · intro a a' b b' w w' h h' e e'
      cases e; cases e'
      exact ⟨congrArg₂ (Fl.mul f) h.mult h'.mult, Fl.of_mul hf _ _, h.bounds.join h'.bounds⟩
    · intro o v v' w' hnb ho hB h e'
      cases o with
      | min b => cases e'; subst hB; exact ⟨h.mult, h.of_mult, h.bounds.extraMin b⟩
      | max b => cases e'; subst hB; exact ⟨h.mult, h.of_mult, h.bounds.extraMax b⟩
      | _ => exact hB.elim
    · intro b _ hB
      exact hB.elim
    · intro v v' r w' h h' e'
      cases e'
      exact ⟨by rw [h.mult]; exact ((congrArg (Fl.mul f _) h'.mult.symm).trans (Fl.mul_one hf h.of_mult)).symm, Fl.of_mul hf _ _, h.bounds.extraJoin h'.bounds⟩
  cases he; cases he'
  rw [key.mult]
  exact key.bounds.clamp _

/-- Overflow is not harmless: a stat of zero whose multipliers overflow `f32` is `0 * ∞ = NaN`, which clamping turns
into `f32::MAX`.  (It does not contradict C71: the result only goes up.) -/
theorem C71_zero_becomes_max :
    let D := statFloat (Fl.ops .f32)
    let big : Fl := .fin (2 ^ 127)
    let tr : Tree D := .op (.op (.base (.fin 0 : Fl)) (.mul big)) (.mul big)
    (tr.run >>= fun v => D.eval v) = .ok (.fin Fmt.f32.maxVal : Fl) := by
  decide +kernel

/-- C71 needs non-negative operands: with a negative multiplier a positive addend lowers the result -/
theorem C71_negative_multiplier_lowers :
    let D := statFloat (Fl.ops .f32)
    let tr : Tree D := .op (.base (.fin 10 : Fl)) (.mul (.fin (-2) : Fl))
    (tr.run >>= fun v => D.eval v) = .ok (.fin (-20) : Fl) ∧
      ((Tree.op tr (.add (.fin 1 : Fl))).run >>= fun v => D.eval v) = .ok (.fin (-22) : Fl) := by
  decide +kernel

/-! ### The hypotheses are met -/

/-- `f32`: 0.5 × 3, against the same with `Add(0.25)` applied first and a separate `Min(2)` joined in -/
example :
    let D := statFloat (Fl.ops .f32)
    let tr : Tree D := .op (.base (.fin (1 / 2) : Fl)) (.mul (.fin 3 : Fl))
    let tr' : Tree D := .join (.op (.op (.base (.fin (1 / 2) : Fl)) (.add (.fin (1 / 4) : Fl))) (.mul (.fin 3 : Fl)))
      (.op .dflt (.min (.fin 2 : Fl)))
    Tree.Extra (statFloat.Bonus .f32) tr tr' ∧ tr'.NoReset ∧
      (tr.run >>= fun v => D.eval v) = .ok (.fin (3 / 2) : Fl) ∧
      (tr'.run >>= fun v => D.eval v) = .ok (.fin (9 / 4) : Fl) := by
  refine ⟨.extraJoin (.op _ (.extra _ (.base _) ?_)) (.extra _ .dflt trivial),
    ⟨⟨⟨trivial, id⟩, id⟩, ⟨trivial, id⟩⟩, by decide +kernel, by decide +kernel⟩
  change (0 : ℚ) ≤ 1 / 4
  norm_num
example : statFloat.NonNeg .f32 (.add (.fin (1 / 4) : Fl)) :=
  ⟨by change (0 : ℚ) ≤ 1 / 4; norm_num, 1, -2, by norm_num, by decide, by decide, by
    rw [abs_of_pos (by norm_num)]; norm_num [Fmt.f32]⟩

/-- `Saturating<i32>`: a stat at the top stays there -/
example :
    let D := statInt ⟨.i32, .saturating, .release⟩
    let tr : Tree D := .op (.base (2000000000 : Int)) (.mul (2 : Int))
    let tr' : Tree D := .op (.op (.base (2000000000 : Int)) (.add (1000000000 : Int))) (.mul (2 : Int))
    Tree.Extra (statInt.Bonus _) tr tr' ∧ tr'.NoReset ∧
      (tr.run >>= fun v => D.eval v) = .ok (2147483647 : Int) ∧
      (tr'.run >>= fun v => D.eval v) = .ok (2147483647 : Int) := by
  refine ⟨.op _ (.extra _ (.base _) ?_), ⟨⟨trivial, id⟩, id⟩, by decide +kernel, by decide +kernel⟩
  change (0 : Int) ≤ 1000000000
  decide

/-- `StatIntFloatMul<i32, f32>`: 10 × 1.5, against the same with another `Mul(2)` -/
example :
    let D := statIntFl ⟨.i32, .prim, .debug⟩ .f32 .floor
    let tr : Tree D := .op (.base (10 : Int)) (.mul (.fin (3 / 2) : Fl))
    let tr' : Tree D := .op (.op (.base (10 : Int)) (.mul (.fin 2 : Fl))) (.mul (.fin (3 / 2) : Fl))
    Tree.Extra (statIntFl.Bonus _ _ _) tr tr' ∧ tr'.NoReset ∧
      (tr.run >>= fun v => D.eval v) = .ok (15 : Int) ∧ (tr'.run >>= fun v => D.eval v) = .ok (30 : Int) := by
  refine ⟨.op _ (.extra _ (.base _) ?_), ⟨⟨trivial, id⟩, id⟩, by decide +kernel, by decide +kernel⟩
  change (1 : ℚ) ≤ 2
  norm_num

/-- bounds with a NaN among the operands: the result is `f32::MAX`, and `Max(7)` brings it down -/
example :
    let D := statFloat (Fl.ops .f32)
    let tr : Tree D := .op (.base (.fin 1 : Fl)) (.mul (.nan : Fl))
    let tr' : Tree D := .op tr (.max (.fin 7 : Fl))
    Tree.Extra (StatOp.IsBound false) tr tr' ∧
      (tr.run >>= fun v => D.eval v) = .ok (.fin Fmt.f32.maxVal : Fl) ∧
      (tr'.run >>= fun v => D.eval v) = .ok (.fin 7 : Fl) :=
  ⟨.extra _ (.op _ (.base _)) rfl, by decide +kernel, by decide +kernel⟩

end BSQ
