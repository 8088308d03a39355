import Verif.Props.Undo
/-!
# C117: bounds stay, for every type with bounds
-/
namespace BSQ

/-- two operations that cancel, applied to a fresh value, give the fresh value back -/
theorem Cancels.dflt {V : Type} {D : StatValue V} {okOp : StatOp D → Prop} {p o : StatOp D} (hc : Cancels D okOp p o)
    (hp : ¬ p.IsBase) (ho : ¬ o.IsBase) (okp : okOp p) (oko : okOp o) {w : V}
    (hw : (Tree.op (.op .dflt p) o).run = .ok w) : w = D.default := by
  refine hc (.op (.op .dflt p) o) .dflt w _ ⟨⟨trivial, hp⟩, ho⟩ trivial ?_ (List.Perm.refl _) hw rfl
  intro x hx
  simp only [Tree.leaves, List.nil_append, List.mem_append, List.mem_singleton] at hx
  rcases hx with rfl | rfl
  · exact okp
  · exact oko

/-- C117: a bound on a `StatIntPercentAdditive` that is tighter than the limit of the type cannot be undone by any
operation, other than a new base value, that does not panic -/
theorem C117_bounds_stay_percent_additive (t : NumTy) (R : Rounding) (S b : Int)
    (okOp : StatOp (statIntPercentAdditive t R S) → Prop) (o : StatOp (statIntPercentAdditive t R S))
    (ho : ¬ o.IsBase) (oko : okOp o) (w : StatIntPercentAdditive) :
    (t.prim.lo < b → okOp (.min b) → (Tree.op (.op .dflt (.min b)) o).run = .ok w →
      ¬ Cancels (statIntPercentAdditive t R S) okOp (.min b) o) ∧
    (b < t.prim.hi → okOp (.max b) → (Tree.op (.op .dflt (.max b)) o).run = .ok w →
      ¬ Cancels (statIntPercentAdditive t R S) okOp (.max b) o) := by
  refine ⟨fun hlt hb hw hc => ?_, fun hlt hb hw hc => ?_⟩ <;>
  · have := hc.dflt id ho hb oko hw
    subst this
    cases o with
    | base x => exact ho trivial
    | or x => exact x.elim
    | not x => exact x.elim
    | _ =>
      simp only [Tree.run, StatOp.writeTo, bind, Except.bind] at hw
      repeat' split at hw
      all_goals (first | cases hw | skip)
      all_goals simp only [Except.ok.injEq, StatIntPercentAdditive.mk.injEq, NumTy.max_eq, NumTy.min_eq,
        NumTy.minValue, NumTy.maxValue] at hw
      all_goals omega
/-- C117: a bound on a `StatIntFraction` that is tighter than the limit of the type cannot be undone by any
operation, other than a new base value, that does not panic -/
theorem C117_bounds_stay_int_fraction (t : NumTy) (R : Rounding) (b : Int)
    (okOp : StatOp (statIntFraction t R) → Prop) (o : StatOp (statIntFraction t R))
    (ho : ¬ o.IsBase) (oko : okOp o) (w : StatIntFraction) :
    (t.prim.lo < b → okOp (.min b) → (Tree.op (.op .dflt (.min b)) o).run = .ok w →
      ¬ Cancels (statIntFraction t R) okOp (.min b) o) ∧
    (b < t.prim.hi → okOp (.max b) → (Tree.op (.op .dflt (.max b)) o).run = .ok w →
      ¬ Cancels (statIntFraction t R) okOp (.max b) o) := by
  refine ⟨fun hlt hb hw hc => ?_, fun hlt hb hw hc => ?_⟩ <;>
  · have := hc.dflt id ho hb oko hw
    subst this
    cases o with
    | base x => exact ho trivial
    | or x => exact x.elim
    | not x => exact x.elim
    | _ =>
      simp only [Tree.run, StatOp.writeTo, bind, Except.bind] at hw
      repeat' split at hw
      all_goals (first | cases hw | skip)
      all_goals simp only [Except.ok.injEq, StatIntFraction.mk.injEq, NumTy.max_eq, NumTy.min_eq,
        NumTy.minValue, NumTy.maxValue] at hw
      all_goals omega

/-- C117: a bound on a `StatIntPercent` that is tighter than the limit of the type cannot be undone by any
operation, other than a new base value, that does not panic -/
theorem C117_bounds_stay_percent (t : NumTy) (R : Rounding) (S : Int) (b : Int)
    (okOp : StatOp (statIntPercent t R S) → Prop) (o : StatOp (statIntPercent t R S))
    (ho : ¬ o.IsBase) (oko : okOp o) (w : StatIntPercent) :
    (t.prim.lo < b → okOp (.min b) → (Tree.op (.op .dflt (.min b)) o).run = .ok w →
      ¬ Cancels (statIntPercent t R S) okOp (.min b) o) ∧
    (b < t.prim.hi → okOp (.max b) → (Tree.op (.op .dflt (.max b)) o).run = .ok w →
      ¬ Cancels (statIntPercent t R S) okOp (.max b) o) := by
  refine ⟨fun hlt hb hw hc => ?_, fun hlt hb hw hc => ?_⟩ <;>
  · have := hc.dflt id ho hb oko hw
    subst this
    cases o with
    | base x => exact ho trivial
    | or x => exact x.elim
    | not x => exact x.elim
    | _ =>
      simp only [Tree.run, StatOp.writeTo, bind, Except.bind] at hw
      repeat' split at hw
      all_goals (first | cases hw | skip)
      all_goals simp only [Except.ok.injEq, StatIntPercent.mk.injEq, NumTy.max_eq, NumTy.min_eq,
        NumTy.minValue, NumTy.maxValue] at hw
      all_goals omega

/-- C117: a bound on a `StatIntFloatMul` that is tighter than the limit of the type cannot be undone by any
operation, other than a new base value, that does not panic -/
theorem C117_bounds_stay_int_float_mul {F : Type} (t : NumTy) (O : FloatOps F) (toF : Int → F) (ofF : F → Int)
    (R : Rounding) (b : Int)
    (okOp : StatOp (statIntFloatMul t O toF ofF R) → Prop) (o : StatOp (statIntFloatMul t O toF ofF R))
    (ho : ¬ o.IsBase) (oko : okOp o) (w : StatIntFloatMul F) :
    (t.prim.lo < b → okOp (.min b) → (Tree.op (.op .dflt (.min b)) o).run = .ok w →
      ¬ Cancels (statIntFloatMul t O toF ofF R) okOp (.min b) o) ∧
    (b < t.prim.hi → okOp (.max b) → (Tree.op (.op .dflt (.max b)) o).run = .ok w →
      ¬ Cancels (statIntFloatMul t O toF ofF R) okOp (.max b) o) := by
  refine ⟨fun hlt hb hw hc => ?_, fun hlt hb hw hc => ?_⟩ <;>
  · have := hc.dflt id ho hb oko hw
    subst this
    cases o with
    | base x => exact ho trivial
    | or x => exact x.elim
    | not x => exact x.elim
    | _ =>
      simp only [Tree.run, StatOp.writeTo, bind, Except.bind] at hw
      repeat' split at hw
      all_goals (first | cases hw | skip)
      all_goals simp only [Except.ok.injEq, StatIntFloatMul.mk.injEq, NumTy.max_eq, NumTy.min_eq,
        NumTy.minValue, NumTy.maxValue] at hw
      all_goals omega

/-- What `<`, `min` and `max` of a number type have to do with each other, for the numbers that are `Ok`. -/
structure Tightens {F : Type} (O : FloatOps F) (Ok : F → Prop) : Prop where
  irrefl : ∀ a, O.lt a a = false
  lo : Ok O.minValue
  hi : Ok O.maxValue
  okMax : ∀ a b, Ok a → Ok b → Ok (O.max a b)
  okMin : ∀ a b, Ok a → Ok b → Ok (O.min a b)
  maxL : ∀ m a b, Ok m → Ok a → Ok b → O.lt m a = true → O.lt m (O.max a b) = true
  maxR : ∀ m a b, Ok m → Ok a → Ok b → O.lt m b = true → O.lt m (O.max a b) = true
  minL : ∀ m a b, Ok m → Ok a → Ok b → O.lt a m = true → O.lt (O.min a b) m = true
  minR : ∀ m a b, Ok m → Ok a → Ok b → O.lt b m = true → O.lt (O.min a b) m = true

theorem Fl.tightens (f : Fmt) : Tightens (Fl.ops f) (fun _ => True) where
  irrefl a := by cases a <;> simp [Fl.lt]
  lo := trivial
  hi := trivial
  okMax _ _ _ _ := trivial
  okMin _ _ _ _ := trivial
  maxL m a b _ _ _ := by
    cases m <;> cases a <;> cases b <;> simp [Fl.lt, Fl.max]
    split <;> intros <;> linarith
  maxR m a b _ _ _ := by
    cases m <;> cases a <;> cases b <;> simp [Fl.lt, Fl.max]
    split <;> intros <;> linarith
  minL m a b _ _ _ := by
    cases m <;> cases a <;> cases b <;> simp [Fl.lt, Fl.min]
    split <;> intros <;> linarith
  minR m a b _ _ _ := by
    cases m <;> cases a <;> cases b <;> simp [Fl.lt, Fl.min]
    split <;> intros <;> linarith

theorem Frac.tightens (t : NumTy) : Tightens (Frac.ops t) Frac.WF where
  irrefl a := by simp [Frac.ops, Frac.lt]
  lo := Frac.wf_int _
  hi := Frac.wf_int _
  okMax _ _ ha hb := (Frac.max_spec ha hb).1
  okMin _ _ ha hb := (Frac.min_spec ha hb).1
  maxL m a b hm ha hb h := by
    have h2 := Frac.max_spec ha hb
    replace h := (Frac.lt_iff hm.pos ha.pos).1 h
    exact (Frac.lt_iff hm.pos h2.1.pos).2 (h2.2 ▸ lt_max_of_lt_left h)
  maxR m a b hm ha hb h := by
    have h2 := Frac.max_spec ha hb
    replace h := (Frac.lt_iff hm.pos hb.pos).1 h
    exact (Frac.lt_iff hm.pos h2.1.pos).2 (h2.2 ▸ lt_max_of_lt_right h)
  minL m a b hm ha hb h := by
    have h2 := Frac.min_spec ha hb
    replace h := (Frac.lt_iff ha.pos hm.pos).1 h
    exact (Frac.lt_iff h2.1.pos hm.pos).2 (h2.2 ▸ min_lt_of_left_lt h)
  minR m a b hm ha hb h := by
    have h2 := Frac.min_spec ha hb
    replace h := (Frac.lt_iff hb.pos hm.pos).1 h
    exact (Frac.lt_iff h2.1.pos hm.pos).2 (h2.2 ▸ min_lt_of_right_lt h)

/-- the bounds of a `StatFloat` only get tighter -/
theorem StatFloat.stays {F : Type} {O : FloatOps F} {Ok : F → Prop} (T : Tightens O Ok) {b : F} (okb : Ok b)
    {okOp : StatOp (statFloat O) → Prop} {o : StatOp (statFloat O)} (hl : ∀ x, o = .min x → Ok x) (hh : ∀ x, o = .max x → Ok x)
    (ho : ¬ o.IsBase) (oko : okOp o) {w : StatFloat F} :
    (O.lt O.minValue b = true → okOp (.min b) → (Tree.op (.op .dflt (.min b)) o).run = .ok w →
      ¬ Cancels (statFloat O) okOp (.min b) o) ∧
    (O.lt b O.maxValue = true → okOp (.max b) → (Tree.op (.op .dflt (.max b)) o).run = .ok w →
      ¬ Cancels (statFloat O) okOp (.max b) o) := by
  refine ⟨fun hlt hb hw hc => ?_, fun hlt hb hw hc => ?_⟩
  · have := hc.dflt id ho hb oko hw
    subst this
    have h1 := T.maxR _ O.minValue _ T.lo T.lo okb hlt
    have h0 := T.irrefl O.minValue
    cases o with
    | base x => exact ho trivial
    | or x => exact x.elim
    | not x => exact x.elim
    | min x =>
      simp only [Tree.run, StatOp.writeTo, bind, Except.bind, Except.ok.injEq, StatFloat.mk.injEq] at hw
      have h2 := T.maxL _ _ x T.lo (T.okMax _ _ T.lo okb) (hl x rfl) h1
      simp_all
    | max x =>
      simp only [Tree.run, StatOp.writeTo, bind, Except.bind, Except.ok.injEq, StatFloat.mk.injEq] at hw
      simp_all
    | add x =>
      simp only [Tree.run, StatOp.writeTo, bind, Except.bind] at hw
      split at hw
      · cases hw
      · simp only [Except.ok.injEq, StatFloat.mk.injEq] at hw
        simp_all
    | mul x =>
      simp only [Tree.run, StatOp.writeTo, bind, Except.bind] at hw
      split at hw
      · cases hw
      · simp only [Except.ok.injEq, StatFloat.mk.injEq] at hw
        simp_all
  · have := hc.dflt id ho hb oko hw
    subst this
    have h1 := T.minR _ O.maxValue _ T.hi T.hi okb hlt
    have h0 := T.irrefl O.maxValue
    cases o with
    | base x => exact ho trivial
    | or x => exact x.elim
    | not x => exact x.elim
    | max x =>
      simp only [Tree.run, StatOp.writeTo, bind, Except.bind, Except.ok.injEq, StatFloat.mk.injEq] at hw
      have h2 := T.minL _ _ x T.hi (T.okMin _ _ T.hi okb) (hh x rfl) h1
      simp_all
    | min x =>
      simp only [Tree.run, StatOp.writeTo, bind, Except.bind, Except.ok.injEq, StatFloat.mk.injEq] at hw
      simp_all
    | add x =>
      simp only [Tree.run, StatOp.writeTo, bind, Except.bind] at hw
      split at hw
      · cases hw
      · simp only [Except.ok.injEq, StatFloat.mk.injEq] at hw
        simp_all
    | mul x =>
      simp only [Tree.run, StatOp.writeTo, bind, Except.bind] at hw
      split at hw
      · cases hw
      · simp only [Except.ok.injEq, StatFloat.mk.injEq] at hw
        simp_all

/-- the bounds of a `StatFloatAdditive` only get tighter -/
theorem StatFloatAdditive.stays {F : Type} {O : FloatOps F} {Ok : F → Prop} (T : Tightens O Ok) {b : F} (okb : Ok b)
    {okOp : StatOp (statFloatAdditive O) → Prop} {o : StatOp (statFloatAdditive O)} (hl : ∀ x, o = .min x → Ok x) (hh : ∀ x, o = .max x → Ok x)
    (ho : ¬ o.IsBase) (oko : okOp o) {w : StatFloatAdditive F} :
    (O.lt O.minValue b = true → okOp (.min b) → (Tree.op (.op .dflt (.min b)) o).run = .ok w →
      ¬ Cancels (statFloatAdditive O) okOp (.min b) o) ∧
    (O.lt b O.maxValue = true → okOp (.max b) → (Tree.op (.op .dflt (.max b)) o).run = .ok w →
      ¬ Cancels (statFloatAdditive O) okOp (.max b) o) := by
  refine ⟨fun hlt hb hw hc => ?_, fun hlt hb hw hc => ?_⟩
  · have := hc.dflt id ho hb oko hw
    subst this
    have h1 := T.maxR _ O.minValue _ T.lo T.lo okb hlt
    have h0 := T.irrefl O.minValue
    cases o with
    | base x => exact ho trivial
    | or x => exact x.elim
    | not x => exact x.elim
    | min x =>
      simp only [Tree.run, StatOp.writeTo, bind, Except.bind, Except.ok.injEq, StatFloatAdditive.mk.injEq] at hw
      have h2 := T.maxL _ _ x T.lo (T.okMax _ _ T.lo okb) (hl x rfl) h1
      simp_all
    | max x =>
      simp only [Tree.run, StatOp.writeTo, bind, Except.bind, Except.ok.injEq, StatFloatAdditive.mk.injEq] at hw
      simp_all
    | add x =>
      simp only [Tree.run, StatOp.writeTo, bind, Except.bind] at hw
      split at hw
      · cases hw
      · simp only [Except.ok.injEq, StatFloatAdditive.mk.injEq] at hw
        simp_all
    | mul x =>
      simp only [Tree.run, StatOp.writeTo, bind, Except.bind] at hw
      split at hw
      · cases hw
      · simp only [Except.ok.injEq, StatFloatAdditive.mk.injEq] at hw
        simp_all
  · have := hc.dflt id ho hb oko hw
    subst this
    have h1 := T.minR _ O.maxValue _ T.hi T.hi okb hlt
    have h0 := T.irrefl O.maxValue
    cases o with
    | base x => exact ho trivial
    | or x => exact x.elim
    | not x => exact x.elim
    | max x =>
      simp only [Tree.run, StatOp.writeTo, bind, Except.bind, Except.ok.injEq, StatFloatAdditive.mk.injEq] at hw
      have h2 := T.minL _ _ x T.hi (T.okMin _ _ T.hi okb) (hh x rfl) h1
      simp_all
    | min x =>
      simp only [Tree.run, StatOp.writeTo, bind, Except.bind, Except.ok.injEq, StatFloatAdditive.mk.injEq] at hw
      simp_all
    | add x =>
      simp only [Tree.run, StatOp.writeTo, bind, Except.bind] at hw
      split at hw
      · cases hw
      · simp only [Except.ok.injEq, StatFloatAdditive.mk.injEq] at hw
        simp_all
    | mul x =>
      simp only [Tree.run, StatOp.writeTo, bind, Except.bind] at hw
      split at hw
      · cases hw
      · simp only [Except.ok.injEq, StatFloatAdditive.mk.injEq] at hw
        simp_all

/-- the bounds of a `StatMult` only get tighter -/
theorem StatMult.stays {F : Type} {O : FloatOps F} {Ok : F → Prop} (T : Tightens O Ok) {b : F} (okb : Ok b)
    {okOp : StatOp (statMult O) → Prop} {o : StatOp (statMult O)} (hl : ∀ x, o = .min x → Ok x) (hh : ∀ x, o = .max x → Ok x)
    (ho : ¬ o.IsBase) (oko : okOp o) {w : StatMult F} :
    (O.lt O.minValue b = true → okOp (.min b) → (Tree.op (.op .dflt (.min b)) o).run = .ok w →
      ¬ Cancels (statMult O) okOp (.min b) o) ∧
    (O.lt b O.maxValue = true → okOp (.max b) → (Tree.op (.op .dflt (.max b)) o).run = .ok w →
      ¬ Cancels (statMult O) okOp (.max b) o) := by
  refine ⟨fun hlt hb hw hc => ?_, fun hlt hb hw hc => ?_⟩
  · have := hc.dflt id ho hb oko hw
    subst this
    have h1 := T.maxR _ O.minValue _ T.lo T.lo okb hlt
    have h0 := T.irrefl O.minValue
    cases o with
    | base x => exact ho trivial
    | or x => exact x.elim
    | not x => exact x.elim
    | min x =>
      simp only [Tree.run, StatOp.writeTo, bind, Except.bind, Except.ok.injEq, StatMult.mk.injEq] at hw
      have h2 := T.maxL _ _ x T.lo (T.okMax _ _ T.lo okb) (hl x rfl) h1
      simp_all
    | max x =>
      simp only [Tree.run, StatOp.writeTo, bind, Except.bind, Except.ok.injEq, StatMult.mk.injEq] at hw
      simp_all
    | add x => exact x.elim
    | mul x =>
      simp only [Tree.run, StatOp.writeTo, bind, Except.bind] at hw
      split at hw
      · cases hw
      · simp only [Except.ok.injEq, StatMult.mk.injEq] at hw
        simp_all
  · have := hc.dflt id ho hb oko hw
    subst this
    have h1 := T.minR _ O.maxValue _ T.hi T.hi okb hlt
    have h0 := T.irrefl O.maxValue
    cases o with
    | base x => exact ho trivial
    | or x => exact x.elim
    | not x => exact x.elim
    | max x =>
      simp only [Tree.run, StatOp.writeTo, bind, Except.bind, Except.ok.injEq, StatMult.mk.injEq] at hw
      have h2 := T.minL _ _ x T.hi (T.okMin _ _ T.hi okb) (hh x rfl) h1
      simp_all
    | min x =>
      simp only [Tree.run, StatOp.writeTo, bind, Except.bind, Except.ok.injEq, StatMult.mk.injEq] at hw
      simp_all
    | add x => exact x.elim
    | mul x =>
      simp only [Tree.run, StatOp.writeTo, bind, Except.bind] at hw
      split at hw
      · cases hw
      · simp only [Except.ok.injEq, StatMult.mk.injEq] at hw
        simp_all

/-- C117: a bound on a `StatFloat<f32>` or `StatFloat<f64>` that is tighter than the limit of the type cannot be undone by any
operation other than a new base value: nothing panics there -/
theorem C117_bounds_stay_float (f : Fmt) (b : Fl) (o : StatOp (statFloat (Fl.ops f))) (ho : ¬ o.IsBase) :
    (Fl.lt (.fin (-f.maxVal)) b = true → ¬ Cancels (statFloat (Fl.ops f)) (fun _ => True) (.min b) o) ∧
    (Fl.lt b (.fin f.maxVal) = true → ¬ Cancels (statFloat (Fl.ops f)) (fun _ => True) (.max b) o) := by
  have runs : ∀ p : StatOp (statFloat (Fl.ops f)), ∃ w, (Tree.op (.op .dflt p) o).run = .ok w := by
    intro p
    cases p <;> cases o <;> exact ⟨_, rfl⟩
  obtain ⟨w, hw⟩ := runs (.min b)
  obtain ⟨w', hw'⟩ := runs (.max b)
  exact ⟨fun h => (StatFloat.stays (Fl.tightens f) trivial (fun _ _ => trivial) (fun _ _ => trivial) ho trivial).1 h trivial hw,
    fun h => (StatFloat.stays (Fl.tightens f) trivial (fun _ _ => trivial) (fun _ _ => trivial) ho trivial).2 h trivial hw'⟩

/-- C117: the same for `StatFloat<Fraction>`, as far as the operation does not panic -/
theorem C117_bounds_stay_float_frac (t : NumTy) (b : Frac) (okb : b.WF)
    (okOp : StatOp (statFloat (Frac.ops t)) → Prop) (o : StatOp (statFloat (Frac.ops t))) (hl : ∀ x, o = .min x → x.WF)
    (hh : ∀ x, o = .max x → x.WF) (ho : ¬ o.IsBase) (oko : okOp o) (w : StatFloat Frac) :
    ((t.minValue : ℚ) < b.toRat → okOp (.min b) → (Tree.op (.op .dflt (.min b)) o).run = .ok w →
      ¬ Cancels (statFloat (Frac.ops t)) okOp (.min b) o) ∧
    (b.toRat < t.maxValue → okOp (.max b) → (Tree.op (.op .dflt (.max b)) o).run = .ok w →
      ¬ Cancels (statFloat (Frac.ops t)) okOp (.max b) o) := by
  have T := Frac.tightens t
  refine ⟨fun h => (StatFloat.stays T okb hl hh ho oko).1 ((Frac.lt_iff T.lo.pos okb.pos).2 ?_),
    fun h => (StatFloat.stays T okb hl hh ho oko).2 ((Frac.lt_iff okb.pos T.hi.pos).2 ?_)⟩
  · simpa [Frac.ops, Frac.newRaw, Frac.toRat] using h
  · simpa [Frac.ops, Frac.newRaw, Frac.toRat] using h

/-- C117: a bound on a `StatFloatAdditive<f32>` or `StatFloatAdditive<f64>` that is tighter than the limit of the type cannot be undone by any
operation other than a new base value: nothing panics there -/
theorem C117_bounds_stay_float_additive (f : Fmt) (b : Fl) (o : StatOp (statFloatAdditive (Fl.ops f))) (ho : ¬ o.IsBase) :
    (Fl.lt (.fin (-f.maxVal)) b = true → ¬ Cancels (statFloatAdditive (Fl.ops f)) (fun _ => True) (.min b) o) ∧
    (Fl.lt b (.fin f.maxVal) = true → ¬ Cancels (statFloatAdditive (Fl.ops f)) (fun _ => True) (.max b) o) := by
  have runs : ∀ p : StatOp (statFloatAdditive (Fl.ops f)), ∃ w, (Tree.op (.op .dflt p) o).run = .ok w := by
    intro p
    cases p <;> cases o <;> exact ⟨_, rfl⟩
  obtain ⟨w, hw⟩ := runs (.min b)
  obtain ⟨w', hw'⟩ := runs (.max b)
  exact ⟨fun h => (StatFloatAdditive.stays (Fl.tightens f) trivial (fun _ _ => trivial) (fun _ _ => trivial) ho trivial).1 h trivial hw,
    fun h => (StatFloatAdditive.stays (Fl.tightens f) trivial (fun _ _ => trivial) (fun _ _ => trivial) ho trivial).2 h trivial hw'⟩

/-- C117: the same for `StatFloatAdditive<Fraction>`, as far as the operation does not panic -/
theorem C117_bounds_stay_float_additive_frac (t : NumTy) (b : Frac) (okb : b.WF)
    (okOp : StatOp (statFloatAdditive (Frac.ops t)) → Prop) (o : StatOp (statFloatAdditive (Frac.ops t))) (hl : ∀ x, o = .min x → x.WF)
    (hh : ∀ x, o = .max x → x.WF) (ho : ¬ o.IsBase) (oko : okOp o) (w : StatFloatAdditive Frac) :
    ((t.minValue : ℚ) < b.toRat → okOp (.min b) → (Tree.op (.op .dflt (.min b)) o).run = .ok w →
      ¬ Cancels (statFloatAdditive (Frac.ops t)) okOp (.min b) o) ∧
    (b.toRat < t.maxValue → okOp (.max b) → (Tree.op (.op .dflt (.max b)) o).run = .ok w →
      ¬ Cancels (statFloatAdditive (Frac.ops t)) okOp (.max b) o) := by
  have T := Frac.tightens t
  refine ⟨fun h => (StatFloatAdditive.stays T okb hl hh ho oko).1 ((Frac.lt_iff T.lo.pos okb.pos).2 ?_),
    fun h => (StatFloatAdditive.stays T okb hl hh ho oko).2 ((Frac.lt_iff okb.pos T.hi.pos).2 ?_)⟩
  · simpa [Frac.ops, Frac.newRaw, Frac.toRat] using h
  · simpa [Frac.ops, Frac.newRaw, Frac.toRat] using h

/-- C117: a bound on a `StatMult<f32>` or `StatMult<f64>` that is tighter than the limit of the type cannot be undone by any
operation other than a new base value: nothing panics there -/
theorem C117_bounds_stay_mult (f : Fmt) (b : Fl) (o : StatOp (statMult (Fl.ops f))) (ho : ¬ o.IsBase) :
    (Fl.lt (.fin (-f.maxVal)) b = true → ¬ Cancels (statMult (Fl.ops f)) (fun _ => True) (.min b) o) ∧
    (Fl.lt b (.fin f.maxVal) = true → ¬ Cancels (statMult (Fl.ops f)) (fun _ => True) (.max b) o) := by
  have runs : ∀ p : StatOp (statMult (Fl.ops f)), ∃ w, (Tree.op (.op .dflt p) o).run = .ok w := by
    intro p
    cases p <;> cases o <;> exact ⟨_, rfl⟩
  obtain ⟨w, hw⟩ := runs (.min b)
  obtain ⟨w', hw'⟩ := runs (.max b)
  exact ⟨fun h => (StatMult.stays (Fl.tightens f) trivial (fun _ _ => trivial) (fun _ _ => trivial) ho trivial).1 h trivial hw,
    fun h => (StatMult.stays (Fl.tightens f) trivial (fun _ _ => trivial) (fun _ _ => trivial) ho trivial).2 h trivial hw'⟩

/-- C117: the same for `StatMult<Fraction>`, as far as the operation does not panic -/
theorem C117_bounds_stay_mult_frac (t : NumTy) (b : Frac) (okb : b.WF)
    (okOp : StatOp (statMult (Frac.ops t)) → Prop) (o : StatOp (statMult (Frac.ops t))) (hl : ∀ x, o = .min x → x.WF)
    (hh : ∀ x, o = .max x → x.WF) (ho : ¬ o.IsBase) (oko : okOp o) (w : StatMult Frac) :
    ((t.minValue : ℚ) < b.toRat → okOp (.min b) → (Tree.op (.op .dflt (.min b)) o).run = .ok w →
      ¬ Cancels (statMult (Frac.ops t)) okOp (.min b) o) ∧
    (b.toRat < t.maxValue → okOp (.max b) → (Tree.op (.op .dflt (.max b)) o).run = .ok w →
      ¬ Cancels (statMult (Frac.ops t)) okOp (.max b) o) := by
  have T := Frac.tightens t
  refine ⟨fun h => (StatMult.stays T okb hl hh ho oko).1 ((Frac.lt_iff T.lo.pos okb.pos).2 ?_),
    fun h => (StatMult.stays T okb hl hh ho oko).2 ((Frac.lt_iff okb.pos T.hi.pos).2 ?_)⟩
  · simpa [Frac.ops, Frac.newRaw, Frac.toRat] using h
  · simpa [Frac.ops, Frac.newRaw, Frac.toRat] using h

/-- C117, concretely: raising the lower bound to 3 and then lowering the upper one, or "lowering the lower bound again",
leaves the lower bound at 3 -/
example : let D := statIntFraction ⟨.i32, .prim, .debug⟩ .round
    (Tree.op (.op .dflt (.min 3)) (.min (-100)) : Tree D).run =
      .ok { addend := 0, min := 3, max := IntTy.i32.hi, mult := ⟨1, 1⟩ } := by rfl

example (o : StatOp (statFloat (Fl.ops .f32))) (ho : ¬ o.IsBase) :
    ¬ Cancels (statFloat (Fl.ops .f32)) (fun _ => True) (.min (.fin 3)) o :=
  (C117_bounds_stay_float .f32 (.fin 3) o ho).1 (by decide +kernel)

example : ¬ Cancels (statFloat (Frac.ops ⟨.i32, .prim, .debug⟩)) statFloat.okOp (.max ⟨1, 2⟩) (.add ⟨-1, 2⟩) :=
  (C117_bounds_stay_float_frac ⟨.i32, .prim, .debug⟩ ⟨1, 2⟩ ⟨by decide, by decide⟩ statFloat.okOp (.add ⟨-1, 2⟩)
    (fun _ h => nomatch h) (fun _ h => nomatch h) id
    (show Frac.Valid _ _ from ⟨⟨by decide, by decide⟩, by decide, by decide⟩) _).2
    (by rw [show NumTy.maxValue ⟨.i32, .prim, .debug⟩ = 2147483647 from by decide]; norm_num [Frac.toRat])
    (show Frac.Valid _ _ from ⟨⟨by decide, by decide⟩, by decide, by decide⟩) rfl

end BSQ
