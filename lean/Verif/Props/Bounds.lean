import Verif.Proofs.Bounds
/-!
# Bounds are respected (C28) and float stats never evaluate to NaN (C23)
-/
namespace BSQ
open Contrib
set_option linter.unusedSimpArgs false

/-! ## C28

`BoundsRespected` (Spec/Bounds) spells out the claim.  The integer versions hold for every integer type,
overflow behaviour, rounding mode, scale and multiplier type.
-/

theorem C28_int (t : NumTy) (tr : Tree (statInt t)) (hr : tr.NoReset) (v : StatInt) (out : Int)
    (hv : tr.run = .ok v) (he : (statInt t).eval v = .ok out) : BoundsRespected tr some t.prim.lo out := by
  simp only [Res.bind_eq_ok, Except.ok.injEq] at he
  obtain ⟨x, -, rfl⟩ := he
  exact (statInt.bmodel t).bounds some (fun _ _ => mem_bcontrib_atLeast (bval := fun b => some (id b))) (fun _ _ => mem_bcontrib_atMost (bval := fun b => some (id b)))
    tr v hr (fun _ _ => trivial) hv _ x (by rw [NumTy.max_eq, NumTy.min_eq]; rfl)

theorem C28_int_fraction (t : NumTy) (R : Rounding) (tr : Tree (statIntFraction t R)) (hr : tr.NoReset)
    (v : StatIntFraction) (out : Int) (hv : tr.run = .ok v) (he : (statIntFraction t R).eval v = .ok out) :
    BoundsRespected tr some t.prim.lo out := by
  simp only [Res.bind_eq_ok, Except.ok.injEq] at he
  obtain ⟨_, -, _, -, x, -, rfl⟩ := he
  exact (statIntFraction.bmodel t R).bounds some (fun _ _ => mem_bcontrib_atLeast (bval := fun b => some (id b)))
    (fun _ _ => mem_bcontrib_atMost (bval := fun b => some (id b)))
    tr v hr (fun _ _ => trivial) hv _ x (by rw [NumTy.max_eq, NumTy.min_eq]; rfl)

theorem C28_int_float_mul {F : Type} (t : NumTy) (O : FloatOps F) (toF : Int → F) (ofF : F → Int)
    (R : Rounding) (tr : Tree (statIntFloatMul t O toF ofF R)) (hr : tr.NoReset)
    (v : StatIntFloatMul F) (out : Int) (hv : tr.run = .ok v)
    (he : (statIntFloatMul t O toF ofF R).eval v = .ok out) : BoundsRespected tr some t.prim.lo out := by
  simp only [Res.bind_eq_ok, Except.ok.injEq] at he
  obtain ⟨_, -, x, -, rfl⟩ := he
  exact (statIntFloatMul.bmodel t O toF ofF R).bounds some (fun _ _ => mem_bcontrib_atLeast (bval := fun b => some (id b)))
    (fun _ _ => mem_bcontrib_atMost (bval := fun b => some (id b)))
    tr v hr (fun _ _ => trivial) hv _ (ofF x) (by rw [NumTy.max_eq, NumTy.min_eq]; rfl)

theorem C28_int_percent_additive (t : NumTy) (R : Rounding) (S : Int)
    (tr : Tree (statIntPercentAdditive t R S)) (hr : tr.NoReset)
    (v : StatIntPercentAdditive) (out : Int) (hv : tr.run = .ok v)
    (he : (statIntPercentAdditive t R S).eval v = .ok out) : BoundsRespected tr some t.prim.lo out := by
  simp only [Res.bind_eq_ok, Except.ok.injEq] at he
  obtain ⟨_, -, _, -, _, -, _, -, _, -, _, -, x, -, rfl⟩ := he
  exact (statIntPercentAdditive.bmodel t R S).bounds some (fun _ _ => mem_bcontrib_atLeast (bval := fun b => some (id b)))
    (fun _ _ => mem_bcontrib_atMost (bval := fun b => some (id b)))
    tr v hr (fun _ _ => trivial) hv _ x (by rw [NumTy.max_eq, NumTy.min_eq]; rfl)

theorem C28_int_percent (t : NumTy) (R : Rounding) (S : Int)
    (tr : Tree (statIntPercent t R S)) (hr : tr.NoReset)
    (v : StatIntPercent) (out : Int) (hv : tr.run = .ok v)
    (he : (statIntPercent t R S).eval v = .ok out) : BoundsRespected tr some t.prim.lo out := by
  simp only [Res.bind_eq_ok, Except.ok.injEq] at he
  obtain ⟨_, -, _, -, x, -, rfl⟩ := he
  exact (statIntPercent.bmodel t R S).bounds some (fun _ _ => mem_bcontrib_atLeast (bval := fun b => some (id b)))
    (fun _ _ => mem_bcontrib_atMost (bval := fun b => some (id b)))
    tr v hr (fun _ _ => trivial) hv _ x (by rw [NumTy.max_eq, NumTy.min_eq]; rfl)

/-- `StatFloat<Fraction>`, compared as exact rationals -/
theorem C28_fraction (t : NumTy) (h : t.ovf = .panic) (hb : 1 < t.prim.bits)
    (tr : Tree (statFloat (Frac.ops t))) (hr : tr.NoReset) (hok : ∀ o ∈ tr.leaves, statFloat.okOp o)
    (v : StatFloat Frac) (out : Frac) (hv : tr.run = .ok v) (he : (statFloat (Frac.ops t)).eval v = .ok out) :
    BoundsRespected tr (fun b => some (Frac.toRat b)) (t.prim.lo : ℚ) out.toRat := by
  have r := (statFloat.fracModel h hb).rep tr v hr hok hv
  have hw : v.WF t := r.ok
  simp only [Res.bind_eq_ok, Except.ok.injEq] at he
  obtain ⟨x, hx, rfl⟩ := he
  have hx := Frac.mul_ok h hw.addend.1 hw.mult.1 hx
  refine (statFloat.fracModel h hb).bounds _ ?_ ?_ tr v hr hok hv _ x.toRat ?_
  · intro l x
    simp only [List.mem_map, statFloat.fracModel]
    constructor
    · rintro ⟨o, ho, e⟩
      cases o <;> first
        | exact ⟨_, ho, by simpa [statFloat.fracContrib] using e⟩
        | (rename_i x; exact x.elim)
        | simp [statFloat.fracContrib] at e
    · rintro ⟨b, hb, e⟩; exact ⟨_, hb, by simpa [statFloat.fracContrib] using e⟩
  · intro l x
    simp only [List.mem_map, statFloat.fracModel]
    constructor
    · rintro ⟨o, ho, e⟩
      cases o <;> first
        | exact ⟨_, ho, by simpa [statFloat.fracContrib] using e⟩
        | (rename_i x; exact x.elim)
        | simp [statFloat.fracContrib] at e
    · rintro ⟨b, hb, e⟩; exact ⟨_, hb, by simpa [statFloat.fracContrib] using e⟩
  · simp only [Frac.ops]
    obtain ⟨k1, k2⟩ := Frac.min_spec hx.1 hw.max.1
    rw [(Frac.max_spec k1 hw.min.1).2, k2]; rfl

theorem C28_fraction_additive (t : NumTy) (h : t.ovf = .panic) (hb : 1 < t.prim.bits)
    (tr : Tree (statFloatAdditive (Frac.ops t))) (hr : tr.NoReset)
    (hok : ∀ o ∈ tr.leaves, statFloatAdditive.okOp o)
    (v : StatFloatAdditive Frac) (out : Frac) (hv : tr.run = .ok v)
    (he : (statFloatAdditive (Frac.ops t)).eval v = .ok out) :
    BoundsRespected tr (fun b => some (Frac.toRat b)) (t.prim.lo : ℚ) out.toRat := by
  have r := (statFloatAdditive.fracModel h hb).rep tr v hr hok hv
  have hw : v.WF t := r.ok
  simp only [Res.bind_eq_ok, Except.ok.injEq] at he
  obtain ⟨m, hm, x, hx, rfl⟩ := he
  have hm := Frac.add_ok h hw.mult.1 (Frac.wf_int 1) hm
  have hx := Frac.mul_ok h hw.addend.1 hm.1 hx
  refine (statFloatAdditive.fracModel h hb).bounds _ ?_ ?_ tr v hr hok hv _ x.toRat ?_
  · intro l x
    simp only [List.mem_map, statFloatAdditive.fracModel]
    constructor
    · rintro ⟨o, ho, e⟩
      cases o <;> first
        | exact ⟨_, ho, by simpa [statFloatAdditive.fracContrib, Contrib.asMul] using e⟩
        | (rename_i x; exact x.elim)
        | simp [statFloatAdditive.fracContrib, Contrib.asMul] at e
    · rintro ⟨b, hb, e⟩; exact ⟨_, hb, by simpa [statFloatAdditive.fracContrib, Contrib.asMul] using e⟩
  · intro l x
    simp only [List.mem_map, statFloatAdditive.fracModel]
    constructor
    · rintro ⟨o, ho, e⟩
      cases o <;> first
        | exact ⟨_, ho, by simpa [statFloatAdditive.fracContrib, Contrib.asMul] using e⟩
        | (rename_i x; exact x.elim)
        | simp [statFloatAdditive.fracContrib, Contrib.asMul] at e
    · rintro ⟨b, hb, e⟩; exact ⟨_, hb, by simpa [statFloatAdditive.fracContrib, Contrib.asMul] using e⟩
  · simp only [Frac.ops]
    obtain ⟨k1, k2⟩ := Frac.min_spec hx.1 hw.max.1
    rw [(Frac.max_spec k1 hw.min.1).2, k2]; rfl

theorem C28_fraction_mult (t : NumTy) (h : t.ovf = .panic) (hb : 1 < t.prim.bits)
    (tr : Tree (statMult (Frac.ops t))) (hr : tr.NoReset) (hok : ∀ o ∈ tr.leaves, statMult.okOp o)
    (v : StatMult Frac) (out : Frac) (hv : tr.run = .ok v) (he : (statMult (Frac.ops t)).eval v = .ok out) :
    BoundsRespected tr (fun b => some (Frac.toRat b)) (t.prim.lo : ℚ) out.toRat := by
  have r := (statMult.fracModel h hb).rep tr v hr hok hv
  have hw : v.WF t := r.ok
  simp only [Except.ok.injEq] at he
  subst he
  refine (statMult.fracModel h hb).bounds _ ?_ ?_ tr v hr hok hv _ v.mult.toRat ?_
  · intro l x
    simp only [List.mem_map, statMult.fracModel]
    constructor
    · rintro ⟨o, ho, e⟩
      cases o <;> first
        | exact ⟨_, ho, by simpa [statMult.fracContrib] using e⟩
        | (rename_i x; exact x.elim)
        | simp [statMult.fracContrib] at e
    · rintro ⟨b, hb, e⟩; exact ⟨_, hb, by simpa [statMult.fracContrib] using e⟩
  · intro l x
    simp only [List.mem_map, statMult.fracModel]
    constructor
    · rintro ⟨o, ho, e⟩
      cases o <;> first
        | exact ⟨_, ho, by simpa [statMult.fracContrib] using e⟩
        | (rename_i x; exact x.elim)
        | simp [statMult.fracContrib] at e
    · rintro ⟨b, hb, e⟩; exact ⟨_, hb, by simpa [statMult.fracContrib] using e⟩
  · simp only [Frac.ops]
    obtain ⟨k1, k2⟩ := Frac.min_spec hw.mult.1 hw.max.1
    rw [(Frac.max_spec k1 hw.min.1).2, k2]; rfl

/-! ### Floats, any operands -/

theorem Fl.clamp_pos {x lo hi : Fl} (hl : lo ≠ .nan) (hh : hi ≠ .nan) :
    Fl.max (Fl.min x hi) lo ≠ .nan ∧
    ∃ y, (Fl.max (Fl.min x hi) lo).pos = clampTo y lo.pos hi.pos := by
  have h1 := Fl.min_not_nan' (a := x) hh
  refine ⟨Fl.max_not_nan h1, ?_⟩
  by_cases hx : x = .nan
  · subst hx
    rw [Fl.min_nan_left]
    exact ⟨hi.pos, by rw [Fl.pos_max hh hl, clampTo, min_self]⟩
  · exact ⟨x.pos, by rw [Fl.pos_max h1 hl, Fl.pos_min hx hh]; rfl⟩

theorem C28_float (f : Fmt) (tr : Tree (statFloat (Fl.ops f))) (hr : tr.NoReset) (v : StatFloat Fl) (out : Fl)
    (hv : tr.run = .ok v) (he : (statFloat (Fl.ops f)).eval v = .ok out) :
    ∃ o, out.ext = some o ∧
      BoundsRespected tr Fl.ext (((-f.maxVal : ℚ) : WithTop ℚ) : WithBot (WithTop ℚ)) o := by
  have r := (statFloat.bmodel f).rep tr v hr (fun _ _ => trivial) hv
  simp only [Res.bind_ok, Except.ok.injEq] at he
  subst he
  obtain ⟨h1, y, h2⟩ := Fl.clamp_pos (x := Fl.mul f v.addend v.mult) r.ok.1 r.ok.2
  exact ⟨_, Fl.ext_eq h1, (statFloat.bmodel f).bounds _ (fun _ _ => mem_bcontrib_atLeast (D := statFloat (Fl.ops f)) (bval := Fl.ext))
    (fun _ _ => mem_bcontrib_atMost (D := statFloat (Fl.ops f)) (bval := Fl.ext)) tr v hr (fun _ _ => trivial) hv _ y h2⟩

theorem C28_float_additive (f : Fmt) (tr : Tree (statFloatAdditive (Fl.ops f))) (hr : tr.NoReset)
    (v : StatFloatAdditive Fl) (out : Fl)
    (hv : tr.run = .ok v) (he : (statFloatAdditive (Fl.ops f)).eval v = .ok out) :
    ∃ o, out.ext = some o ∧
      BoundsRespected tr Fl.ext (((-f.maxVal : ℚ) : WithTop ℚ) : WithBot (WithTop ℚ)) o := by
  have r := (statFloatAdditive.bmodel f).rep tr v hr (fun _ _ => trivial) hv
  simp only [Res.bind_ok, Except.ok.injEq] at he
  subst he
  obtain ⟨h1, y, h2⟩ := Fl.clamp_pos (x := Fl.mul f v.addend (Fl.add f v.mult (.fin 1))) r.ok.1 r.ok.2
  exact ⟨_, Fl.ext_eq h1, (statFloatAdditive.bmodel f).bounds _ (fun _ _ => mem_bcontrib_atLeast (D := statFloatAdditive (Fl.ops f)) (bval := Fl.ext))
    (fun _ _ => mem_bcontrib_atMost (D := statFloatAdditive (Fl.ops f)) (bval := Fl.ext)) tr v hr (fun _ _ => trivial) hv _ y h2⟩

theorem C28_float_mult (f : Fmt) (tr : Tree (statMult (Fl.ops f))) (hr : tr.NoReset)
    (v : StatMult Fl) (out : Fl)
    (hv : tr.run = .ok v) (he : (statMult (Fl.ops f)).eval v = .ok out) :
    ∃ o, out.ext = some o ∧
      BoundsRespected tr Fl.ext (((-f.maxVal : ℚ) : WithTop ℚ) : WithBot (WithTop ℚ)) o := by
  have r := (statMult.bmodel f).rep tr v hr (fun _ _ => trivial) hv
  simp only [Except.ok.injEq] at he
  subst he
  obtain ⟨h1, y, h2⟩ := Fl.clamp_pos (x := v.mult) r.ok.1 r.ok.2
  exact ⟨_, Fl.ext_eq h1, (statMult.bmodel f).bounds _ (fun _ _ => mem_bcontrib_atLeast (D := statMult (Fl.ops f)) (bval := Fl.ext))
    (fun _ _ => mem_bcontrib_atMost (D := statMult (Fl.ops f)) (bval := Fl.ext)) tr v hr (fun _ _ => trivial) hv _ y h2⟩

/-- min 20 and max 10 conflict: the result is 20; without the min it is 10 -/
example : let D := statInt ⟨.i32, .prim, .debug⟩
    let tr : Tree D := .join (.op (.base 50) (.max 10)) (.op .dflt (.min 20))
    tr.NoReset ∧ (tr.run >>= fun v => D.eval v) = .ok 20 ∧
    ((Tree.op (.base 50) (.max 10) : Tree D).run >>= fun v => D.eval v) = .ok 10 := by
  exact ⟨by simp [Tree.NoReset, StatOp.IsBase], by decide, by decide⟩

/-! ## C23 -/

/-- an invariant kept by every way of assembling a value -/
theorem Tree.inv {V : Type} {D : StatValue V} (P : V → Prop) (okOp : StatOp D → Prop) (h0 : P D.default)
    (hb : ∀ b, P (D.fromBase b)) (hs : ∀ o v v', okOp o → P v → o.writeTo v = .ok v' → P v')
    (hj : ∀ a b c, P a → P b → D.join a b = .ok c → P c) (tr : Tree D) (v : V)
    (hok : ∀ o ∈ tr.leaves, okOp o) (h : tr.run = .ok v) : P v := by
  induction tr generalizing v with
  | dflt => cases h; exact h0
  | base b => cases h; exact hb b
  | op t o ih =>
    obtain ⟨w, hw, h⟩ := Res.bind_eq_ok.1 h
    exact hs o w v (hok o (by simp [leaves])) (ih w (fun o ho => hok o (by simp [leaves, ho])) hw) h
  | join l r ihl ihr =>
    obtain ⟨a, ha, h⟩ := Res.bind_eq_ok.1 h
    obtain ⟨b, hb, h⟩ := Res.bind_eq_ok.1 h
    exact hj a b v (ihl a (fun o ho => hok o (by simp [leaves, ho])) ha)
      (ihr b (fun o ho => hok o (by simp [leaves, ho])) hb) h

/-- assembling cannot fail when no operation does -/
theorem Tree.run_total {V : Type} {D : StatValue V} (hs : ∀ (o : StatOp D) v, ∃ v', o.writeTo v = .ok v')
    (hj : ∀ a b, ∃ c, D.join a b = .ok c) (tr : Tree D) : ∃ v, tr.run = .ok v := by
  induction tr with
  | dflt => exact ⟨_, rfl⟩
  | base b => exact ⟨_, rfl⟩
  | op t o ih => obtain ⟨v, hv⟩ := ih; simpa [run, hv] using hs o v
  | join l r ihl ihr =>
    obtain ⟨a, ha⟩ := ihl
    obtain ⟨b, hb⟩ := ihr
    simpa [run, ha, hb] using hj a b

/-- the bounds of a float stat: not NaN, the upper one at most the greatest float, the lower one at least the
least float, and below `+∞` when `fin` is set -/
structure FlBounds (f : Fmt) (fin : Prop) (lo hi : Fl) : Prop where
  lo_nan : lo ≠ .nan
  hi_nan : hi ≠ .nan
  lo_ninf : lo ≠ .ninf
  hi_pinf : hi ≠ .pinf
  lo_pinf : fin → lo ≠ .pinf

theorem FlBounds.dflt (f : Fmt) (P : Prop) : FlBounds f P (.fin (-f.maxVal)) (.fin f.maxVal) := by
  constructor <;> simp
theorem FlBounds.raise {f : Fmt} {P : Prop} {lo hi b : Fl} (h : FlBounds f P lo hi) (hb : P → b ≠ .pinf) :
    FlBounds f P (Fl.max lo b) hi := by
  obtain ⟨h1, h2, h3, h4, h5⟩ := h
  refine ⟨Fl.max_not_nan h1, h2, ?_, h4, fun p => ?_⟩
  · cases lo <;> cases b <;> simp_all [Fl.max]
  · have := h5 p; have := hb p
    cases lo <;> cases b <;> simp_all [Fl.max]
theorem FlBounds.lower {f : Fmt} {P : Prop} {lo hi b : Fl} (h : FlBounds f P lo hi) :
    FlBounds f P lo (Fl.min hi b) := by
  obtain ⟨h1, h2, h3, h4, h5⟩ := h
  refine ⟨h1, Fl.min_not_nan h2, h3, ?_, h5⟩
  cases hi <;> cases b <;> simp_all [Fl.min]
theorem FlBounds.clamp {f : Fmt} {P : Prop} {lo hi : Fl} (h : FlBounds f P lo hi) (x : Fl) :
    Fl.max (Fl.min x hi) lo ≠ .nan ∧ (P → ∃ q, Fl.max (Fl.min x hi) lo = .fin q) := by
  obtain ⟨h1, h2, h3, h4, h5⟩ := h
  refine ⟨(Fl.clamp_pos h1 h2).1, fun p => ?_⟩
  have := h5 p
  cases x <;> cases hi <;> cases lo <;> simp_all [Fl.min, Fl.max]

/-- C23 for `StatFloat`: whatever was applied (including NaN, infinities and overwriting bases), assembling
never fails, the evaluation is not NaN, and it is finite unless a minimum of `+∞` was registered.  Together
with `C28_float` it is never below the effective minimum. -/
theorem C23_float (f : Fmt) (tr : Tree (statFloat (Fl.ops f))) :
    ∃ v out, tr.run = .ok v ∧ (statFloat (Fl.ops f)).eval v = .ok out ∧ out ≠ .nan ∧
      (StatOp.min Fl.pinf ∉ tr.leaves → ∃ q, out = .fin q) := by
  obtain ⟨v, hv⟩ := Tree.run_total (D := statFloat (Fl.ops f))
    (by rintro (_ | _ | x | x | _ | _ | _) v <;> first | exact x.elim | exact ⟨_, rfl⟩)
    (fun _ _ => ⟨_, rfl⟩) tr
  have h := Tree.inv (fun v => FlBounds f (StatOp.min Fl.pinf ∉ tr.leaves) v.min v.max)
    (fun o => o ∈ tr.leaves) (.dflt _ _) (fun _ => .dflt _ _) (by
      intro o v v' ho hv h
      cases o with
      | or x => exact x.elim
      | not x => exact x.elim
      | min x => cases h; exact hv.raise (fun hp he => hp (by rw [← he]; exact ho))
      | max x => cases h; exact hv.lower
      | base x => cases h; exact .dflt _ _
      | _ => cases h; exact hv)
    (by
      intro a b c ha hb h
      cases h
      exact (ha.raise hb.lo_pinf).lower) tr v (fun _ h => h) hv
  exact ⟨v, _, hv, rfl, h.clamp _⟩

/-- C23 for `StatFloatAdditive` -/
theorem C23_float_additive (f : Fmt) (tr : Tree (statFloatAdditive (Fl.ops f))) :
    ∃ v out, tr.run = .ok v ∧ (statFloatAdditive (Fl.ops f)).eval v = .ok out ∧ out ≠ .nan ∧
      (StatOp.min Fl.pinf ∉ tr.leaves → ∃ q, out = .fin q) := by
  obtain ⟨v, hv⟩ := Tree.run_total (D := statFloatAdditive (Fl.ops f))
    (by rintro (_ | _ | x | x | _ | _ | _) v <;> first | exact x.elim | exact ⟨_, rfl⟩)
    (fun _ _ => ⟨_, rfl⟩) tr
  have h := Tree.inv (fun v => FlBounds f (StatOp.min Fl.pinf ∉ tr.leaves) v.min v.max)
    (fun o => o ∈ tr.leaves) (.dflt _ _) (fun _ => .dflt _ _) (by
      intro o v v' ho hv h
      cases o with
      | or x => exact x.elim
      | not x => exact x.elim
      | min x => cases h; exact hv.raise (fun hp he => hp (by rw [← he]; exact ho))
      | max x => cases h; exact hv.lower
      | base x => cases h; exact .dflt _ _
      | _ => cases h; exact hv)
    (by
      intro a b c ha hb h
      cases h
      exact (ha.raise hb.lo_pinf).lower) tr v (fun _ h => h) hv
  exact ⟨v, _, hv, rfl, h.clamp _⟩

/-- C23 for `StatMult` -/
theorem C23_float_mult (f : Fmt) (tr : Tree (statMult (Fl.ops f))) :
    ∃ v out, tr.run = .ok v ∧ (statMult (Fl.ops f)).eval v = .ok out ∧ out ≠ .nan ∧
      (StatOp.min Fl.pinf ∉ tr.leaves → ∃ q, out = .fin q) := by
  obtain ⟨v, hv⟩ := Tree.run_total (D := statMult (Fl.ops f))
    (by rintro (x | _ | x | x | _ | _ | _) v <;> first | exact x.elim | exact ⟨_, rfl⟩)
    (fun _ _ => ⟨_, rfl⟩) tr
  have h := Tree.inv (fun v => FlBounds f (StatOp.min Fl.pinf ∉ tr.leaves) v.min v.max)
    (fun o => o ∈ tr.leaves) (.dflt _ _) (fun _ => .dflt _ _) (by
      intro o v v' ho hv h
      cases o with
      | add x => exact x.elim
      | or x => exact x.elim
      | not x => exact x.elim
      | min x => cases h; exact hv.raise (fun hp he => hp (by rw [← he]; exact ho))
      | max x => cases h; exact hv.lower
      | base x => cases h; exact .dflt _ _
      | _ => cases h; exact hv)
    (by
      intro a b c ha hb h
      cases h
      exact (ha.raise hb.lo_pinf).lower) tr v (fun _ h => h) hv
  exact ⟨v, _, hv, rfl, h.clamp _⟩

theorem float.inf_addend (f : Fmt) (tr : Tree (statFloat (Fl.ops f))) :
    ∀ v, (∀ x, StatOp.base x ∉ tr.leaves) → tr.run = .ok v →
    (StatOp.add Fl.pinf ∈ tr.leaves → v.addend = .pinf ∨ v.addend = .nan) ∧
    (StatOp.add Fl.ninf ∈ tr.leaves → v.addend = .ninf ∨ v.addend = .nan) := by
  induction tr with
  | dflt => intro v _ _; simp [Tree.leaves]
  | base b => intro v hb _; exact absurd (by simp [Tree.leaves]) (hb b)
  | op t o ih =>
    intro v hb hv
    simp only [Tree.run, Res.bind_eq_ok] at hv
    obtain ⟨a, ha, hv⟩ := hv
    have h := ih a (fun x hx => hb x (by simp [Tree.leaves, hx])) ha
    cases o with
    | or x => exact x.elim
    | not x => exact x.elim
    | base x => exact absurd (by simp [Tree.leaves]) (hb x)
    | add x =>
      cases hv
      simp only [Tree.leaves, List.mem_append, List.mem_singleton, StatOp.add.injEq]
      constructor
      · rintro (hl | rfl)
        · rcases h.1 hl with e | e <;> cases x <;> simp [e, Fl.ops, Fl.add]
        · cases a.addend <;> simp [Fl.ops, Fl.add]
      · rintro (hl | rfl)
        · rcases h.2 hl with e | e <;> cases x <;> simp [e, Fl.ops, Fl.add]
        · cases a.addend <;> simp [Fl.ops, Fl.add]
    | _ => cases hv; simpa [Tree.leaves] using h
  | join l r ihl ihr =>
    intro v hb hv
    rw [Tree.run, Res.bind_eq_ok] at hv
    obtain ⟨a, ha, hv⟩ := hv
    rw [Res.bind_eq_ok] at hv
    obtain ⟨b, hb', hv⟩ := hv
    have h1 := ihl a (fun x hx => hb x (by simp [Tree.leaves, hx])) ha
    have h2 := ihr b (fun x hx => hb x (by simp [Tree.leaves, hx])) hb'
    have e0 : v.addend = Fl.add f a.addend b.addend := by cases hv; rfl
    simp only [Tree.leaves, List.mem_append, e0]
    constructor
    · rintro (hl | hl)
      · rcases h1.1 hl with e | e <;> cases b.addend <;> simp [e, Fl.add]
      · rcases h2.1 hl with e | e <;> cases a.addend <;> simp [e, Fl.add]
    · rintro (hl | hl)
      · rcases h1.2 hl with e | e <;> cases b.addend <;> simp [e, Fl.add]
      · rcases h2.2 hl with e | e <;> cases a.addend <;> simp [e, Fl.add]

/-- C24: whatever else was applied and in whatever order, adding both infinities gives a NaN addend. -/
theorem C24_opposite_infinities_float (f : Fmt) (tr : Tree (statFloat (Fl.ops f))) (v)
    (hb : ∀ x, StatOp.base x ∉ tr.leaves) (hp : StatOp.add Fl.pinf ∈ tr.leaves) (hn : StatOp.add Fl.ninf ∈ tr.leaves)
    (h : tr.run = .ok v) : v.addend = .nan := by
  have := float.inf_addend f tr v hb h
  rcases this.1 hp with e | e
  · rcases this.2 hn with e' | e'
    · rw [e] at e'; cases e'
    · exact e'
  · exact e

theorem additive.inf_addend (f : Fmt) (tr : Tree (statFloatAdditive (Fl.ops f))) :
    ∀ v, (∀ x, StatOp.base x ∉ tr.leaves) → tr.run = .ok v →
    (StatOp.add Fl.pinf ∈ tr.leaves → v.addend = .pinf ∨ v.addend = .nan) ∧
    (StatOp.add Fl.ninf ∈ tr.leaves → v.addend = .ninf ∨ v.addend = .nan) := by
  induction tr with
  | dflt => intro v _ _; simp [Tree.leaves]
  | base b => intro v hb _; exact absurd (by simp [Tree.leaves]) (hb b)
  | op t o ih =>
    intro v hb hv
    simp only [Tree.run, Res.bind_eq_ok] at hv
    obtain ⟨a, ha, hv⟩ := hv
    have h := ih a (fun x hx => hb x (by simp [Tree.leaves, hx])) ha
    cases o with
    | or x => exact x.elim
    | not x => exact x.elim
    | base x => exact absurd (by simp [Tree.leaves]) (hb x)
    | add x =>
      cases hv
      simp only [Tree.leaves, List.mem_append, List.mem_singleton, StatOp.add.injEq]
      constructor
      · rintro (hl | rfl)
        · rcases h.1 hl with e | e <;> cases x <;> simp [e, Fl.ops, Fl.add]
        · cases a.addend <;> simp [Fl.ops, Fl.add]
      · rintro (hl | rfl)
        · rcases h.2 hl with e | e <;> cases x <;> simp [e, Fl.ops, Fl.add]
        · cases a.addend <;> simp [Fl.ops, Fl.add]
    | _ => cases hv; simpa [Tree.leaves] using h
  | join l r ihl ihr =>
    intro v hb hv
    rw [Tree.run, Res.bind_eq_ok] at hv
    obtain ⟨a, ha, hv⟩ := hv
    rw [Res.bind_eq_ok] at hv
    obtain ⟨b, hb', hv⟩ := hv
    have h1 := ihl a (fun x hx => hb x (by simp [Tree.leaves, hx])) ha
    have h2 := ihr b (fun x hx => hb x (by simp [Tree.leaves, hx])) hb'
    have e0 : v.addend = Fl.add f a.addend b.addend := by cases hv; rfl
    simp only [Tree.leaves, List.mem_append, e0]
    constructor
    · rintro (hl | hl)
      · rcases h1.1 hl with e | e <;> cases b.addend <;> simp [e, Fl.add]
      · rcases h2.1 hl with e | e <;> cases a.addend <;> simp [e, Fl.add]
    · rintro (hl | hl)
      · rcases h1.2 hl with e | e <;> cases b.addend <;> simp [e, Fl.add]
      · rcases h2.2 hl with e | e <;> cases a.addend <;> simp [e, Fl.add]

/-- C24: whatever else was applied and in whatever order, adding both infinities gives a NaN addend. -/
theorem C24_opposite_infinities_additive (f : Fmt) (tr : Tree (statFloatAdditive (Fl.ops f))) (v)
    (hb : ∀ x, StatOp.base x ∉ tr.leaves) (hp : StatOp.add Fl.pinf ∈ tr.leaves) (hn : StatOp.add Fl.ninf ∈ tr.leaves)
    (h : tr.run = .ok v) : v.addend = .nan := by
  have := additive.inf_addend f tr v hb h
  rcases this.1 hp with e | e
  · rcases this.2 hn with e' | e'
    · rw [e] at e'; cases e'
    · exact e'
  · exact e

/-- `∞ - ∞` is NaN as an addend, yet the evaluation is the greatest float -/
example : let D := statFloat (Fl.ops .f32)
    let tr : Tree D := .op (.op .dflt (.add .pinf)) (.add .ninf)
    tr.run.map StatFloat.addend = .ok .nan ∧
    (tr.run >>= fun v => D.eval v) = .ok (.fin Fmt.f32.maxVal) := by
  exact ⟨by decide +kernel, by decide +kernel⟩

end BSQ
