import Verif.Props.Fraction
import Verif.Props.FloatPoint
import Verif.Props.Bounds
/-!
# Operations are interchangeable with joined modifiers (C29); base values round trip (C30)
-/
namespace BSQ
open Contrib
set_option linter.unusedSimpArgs false

/-! ## C29 -/

/-- operands of a `StatInt` are values of the machine type -/
def statInt.okOp {t : NumTy} (o : StatOp (statInt t)) : Prop := t.prim.InRange (statInt.contrib o).num

/-- C29 for `StatInt`, every integer type and build -/
theorem C29_int (t : NumTy) (hb : 1 < t.prim.bits) : WriteIsJoin (statInt t) (StatInt.WF t) statInt.okOp := by
  intro o v hnb hok hv
  have h1 := IntTy.inRange_one hb
  have h0 := t.prim.inRange_zero
  cases o with
  | or x => exact x.elim
  | not x => exact x.elim
  | base x => exact absurd trivial hnb
  | add a =>
    have hok : t.prim.InRange a := hok
    simp [StatOp.intoStat, StatOp.writeTo, NumTy.add, NumTy.mul, NumTy.fit_inRange hok,
      NumTy.fit_inRange hv.mult, NumTy.max_eq, NumTy.min_eq, NumTy.minValue, NumTy.maxValue, hv.min.1, hv.max.2]
  | mul a =>
    have hok : t.prim.InRange a := hok
    simp [StatOp.intoStat, StatOp.writeTo, NumTy.add, NumTy.mul, NumTy.fit_inRange hok,
      NumTy.fit_inRange hv.addend, NumTy.max_eq, NumTy.min_eq, NumTy.minValue, NumTy.maxValue, hv.min.1,
      hv.max.2]
  | min a =>
    have hok : t.prim.InRange a := hok
    simp [StatOp.intoStat, StatOp.writeTo, NumTy.add, NumTy.mul, NumTy.fit_inRange hv.mult, max_eq_right hok.1,
      NumTy.fit_inRange hv.addend, NumTy.max_eq, NumTy.min_eq, NumTy.minValue, NumTy.maxValue, hv.min.1,
      hv.max.2]
  | max a =>
    have hok : t.prim.InRange a := hok
    simp [StatOp.intoStat, StatOp.writeTo, NumTy.add, NumTy.mul, NumTy.fit_inRange hv.mult, min_eq_right hok.2,
      NumTy.fit_inRange hv.addend, NumTy.max_eq, NumTy.min_eq, NumTy.minValue, NumTy.maxValue, hv.min.1,
      hv.max.2]

/-- C29 for `StatIntFraction`, every integer type and build -/
theorem C29_int_fraction (t : NumTy) (hb : 1 < t.prim.bits) (R : Rounding) :
    WriteIsJoin (statIntFraction t R) (StatIntFraction.WF t) statIntFraction.okOp := by
  intro o v hnb hok hv
  have h0 := t.prim.inRange_zero
  have hb' : 1 < t.primInt.prim.bits := hb
  have hm1 := Frac.mul_one (t := t.primInt) hb' (a := v.mult) hv.mult
  cases o with
  | or x => exact x.elim
  | not x => exact x.elim
  | base x => exact absurd trivial hnb
  | add a =>
    have hok : t.prim.InRange a := hok
    simp [StatOp.intoStat, StatOp.writeTo, NumTy.add, NumTy.fit_inRange hok, Frac.ops, Frac.newRaw, hm1,
      NumTy.max_eq, NumTy.min_eq, NumTy.minValue, NumTy.maxValue, hv.min.1, hv.max.2]
  | mul a =>
    have hok : a.Valid t := hok
    have hma := Frac.one_mul (t := t.primInt) hb' (a := a) hok
    simp [StatOp.intoStat, StatOp.writeTo, NumTy.add, Frac.ops, Frac.newRaw, hma,
      NumTy.fit_inRange hv.addend, NumTy.max_eq, NumTy.min_eq, NumTy.minValue, NumTy.maxValue, hv.min.1,
      hv.max.2]
  | min a =>
    have hok : t.prim.InRange a := hok
    simp [StatOp.intoStat, StatOp.writeTo, NumTy.add, Frac.ops, Frac.newRaw, hm1, max_eq_right hok.1,
      NumTy.fit_inRange hv.addend, NumTy.max_eq, NumTy.min_eq, NumTy.minValue, NumTy.maxValue, hv.min.1,
      hv.max.2]
  | max a =>
    have hok : t.prim.InRange a := hok
    simp [StatOp.intoStat, StatOp.writeTo, NumTy.add, Frac.ops, Frac.newRaw, hm1, min_eq_right hok.2,
      NumTy.fit_inRange hv.addend, NumTy.max_eq, NumTy.min_eq, NumTy.minValue, NumTy.maxValue, hv.min.1,
      hv.max.2]

/-- C29 for `StatIntPercentAdditive`, every integer type and build -/
theorem C29_int_percent_additive (t : NumTy) (R : Rounding) (S : Int) :
    WriteIsJoin (statIntPercentAdditive t R S) (StatIntPercentAdditive.WF t)
      statIntPercentAdditive.okOp := by
  intro o v hnb hok hv
  have h0 := t.prim.inRange_zero
  cases o with
  | or x => exact x.elim
  | not x => exact x.elim
  | base x => exact absurd trivial hnb
  | add a =>
    have hok : t.prim.InRange a := hok
    simp [StatOp.intoStat, StatOp.writeTo, NumTy.add, NumTy.fit_inRange hok,
      NumTy.fit_inRange hv.mult, NumTy.max_eq, NumTy.min_eq, NumTy.minValue, NumTy.maxValue, hv.min.1, hv.max.2]
  | mul a =>
    have hok : t.prim.InRange a := hok
    simp [StatOp.intoStat, StatOp.writeTo, NumTy.add, NumTy.fit_inRange hok,
      NumTy.fit_inRange hv.addend, NumTy.max_eq, NumTy.min_eq, NumTy.minValue, NumTy.maxValue, hv.min.1,
      hv.max.2]
  | min a =>
    have hok : t.prim.InRange a := hok
    simp [StatOp.intoStat, StatOp.writeTo, NumTy.add, NumTy.fit_inRange hv.mult, max_eq_right hok.1,
      NumTy.fit_inRange hv.addend, NumTy.max_eq, NumTy.min_eq, NumTy.minValue, NumTy.maxValue, hv.min.1,
      hv.max.2]
  | max a =>
    have hok : t.prim.InRange a := hok
    simp [StatOp.intoStat, StatOp.writeTo, NumTy.add, NumTy.fit_inRange hv.mult, min_eq_right hok.2,
      NumTy.fit_inRange hv.addend, NumTy.max_eq, NumTy.min_eq, NumTy.minValue, NumTy.maxValue, hv.min.1,
      hv.max.2]

/-- C29 for the fraction stats -/
theorem C29_fractions (t : NumTy) (hb : 1 < t.prim.bits) :
    WriteIsJoin (statFloat (Frac.ops t)) (StatFloat.WF t) statFloat.okOp ∧
    WriteIsJoin (statFloatAdditive (Frac.ops t)) (StatFloatAdditive.WF t) statFloatAdditive.okOp ∧
    WriteIsJoin (statMult (Frac.ops t)) (StatMult.WF t) statMult.okOp := by
  refine ⟨?_, ?_, ?_⟩
  · intro o v hnb hok hv
    have m1 := (Frac.max_lo hb hv.min).2
    have m2 := (Frac.min_hi hb hv.max).2
    cases o with
    | or x => exact x.elim
    | not x => exact x.elim
    | base x => exact absurd trivial hnb
    | add a =>
      have hok : a.Valid t := hok
      simp [StatOp.intoStat, StatOp.writeTo, Frac.ops, Frac.newRaw, NumTy.minValue, NumTy.maxValue,
        Frac.zero_add hb hok, Frac.mul_one hb hv.mult, m1, m2]
    | mul a =>
      have hok : a.Valid t := hok
      simp [StatOp.intoStat, StatOp.writeTo, Frac.ops, Frac.newRaw, NumTy.minValue, NumTy.maxValue,
        Frac.one_mul hb hok, Frac.add_zero hb hv.addend, m1, m2]
    | min a =>
      have hok : a.Valid t := hok
      simp [StatOp.intoStat, StatOp.writeTo, Frac.ops, Frac.newRaw, NumTy.minValue, NumTy.maxValue,
        Frac.mul_one hb hv.mult, Frac.add_zero hb hv.addend, m1, m2, (Frac.max_lo hb hok).1]
    | max a =>
      have hok : a.Valid t := hok
      simp [StatOp.intoStat, StatOp.writeTo, Frac.ops, Frac.newRaw, NumTy.minValue, NumTy.maxValue,
        Frac.mul_one hb hv.mult, Frac.add_zero hb hv.addend, m1, m2, (Frac.min_hi hb hok).1]
  · intro o v hnb hok hv
    have m1 := (Frac.max_lo hb hv.min).2
    have m2 := (Frac.min_hi hb hv.max).2
    cases o with
    | or x => exact x.elim
    | not x => exact x.elim
    | base x => exact absurd trivial hnb
    | add a =>
      have hok : a.Valid t := hok
      simp [StatOp.intoStat, StatOp.writeTo, Frac.ops, Frac.newRaw, NumTy.minValue, NumTy.maxValue,
        Frac.zero_add hb hok, Frac.add_zero hb hv.mult, m1, m2]
    | mul a =>
      have hok : a.Valid t := hok
      simp [StatOp.intoStat, StatOp.writeTo, Frac.ops, Frac.newRaw, NumTy.minValue, NumTy.maxValue,
        Frac.zero_add hb hok, Frac.add_zero hb hv.addend, m1, m2]
    | min a =>
      have hok : a.Valid t := hok
      simp [StatOp.intoStat, StatOp.writeTo, Frac.ops, Frac.newRaw, NumTy.minValue, NumTy.maxValue,
        Frac.add_zero hb hv.mult, Frac.add_zero hb hv.addend, m1, m2, (Frac.max_lo hb hok).1]
    | max a =>
      have hok : a.Valid t := hok
      simp [StatOp.intoStat, StatOp.writeTo, Frac.ops, Frac.newRaw, NumTy.minValue, NumTy.maxValue,
        Frac.add_zero hb hv.mult, Frac.add_zero hb hv.addend, m1, m2, (Frac.min_hi hb hok).1]
  · intro o v hnb hok hv
    have m1 := (Frac.max_lo hb hv.min).2
    have m2 := (Frac.min_hi hb hv.max).2
    cases o with
    | add x => exact x.elim
    | or x => exact x.elim
    | not x => exact x.elim
    | base x => exact absurd trivial hnb
    | mul a =>
      have hok : a.Valid t := hok
      simp [StatOp.intoStat, StatOp.writeTo, Frac.ops, Frac.newRaw, NumTy.minValue, NumTy.maxValue,
        Frac.one_mul hb hok, m1, m2]
    | min a =>
      have hok : a.Valid t := hok
      simp [StatOp.intoStat, StatOp.writeTo, Frac.ops, Frac.newRaw, NumTy.minValue, NumTy.maxValue,
        Frac.mul_one hb hv.mult, m1, m2, (Frac.max_lo hb hok).1]
    | max a =>
      have hok : a.Valid t := hok
      simp [StatOp.intoStat, StatOp.writeTo, Frac.ops, Frac.newRaw, NumTy.minValue, NumTy.maxValue,
        Frac.mul_one hb hv.mult, m1, m2, (Frac.min_hi hb hok).1]

/-- a float of the format: NaN, an infinity or a representable number -/
def Fl.Of (f : Fmt) : Fl → Prop
  | .fin q => f.Rep q
  | _ => True

theorem Fl.rep_one {f : Fmt} (hf : f.Normal) : f.Rep 1 :=
  ⟨1, 0, by simp, by simpa using one_le_pow₀ (a := (2 : ℤ)) (by norm_num), hf.emin_neg,
    by
      have := hf.emax_big
      simpa using one_lt_pow₀ (a := (2 : ℚ)) (by norm_num) (by omega)⟩

theorem Fl.zero_add {f : Fmt} (hf : f.Normal) {x : Fl} (h : x.Of f) : Fl.add f (.fin 0) x = x := by
  cases x <;> simp [Fl.add]
  exact f.rnd_rep hf h
theorem Fl.add_zero {f : Fmt} (hf : f.Normal) {x : Fl} (h : x.Of f) : Fl.add f x (.fin 0) = x := by
  rw [Fl.add_comm, Fl.zero_add hf h]
theorem Fl.mul_one {f : Fmt} (hf : f.Normal) {x : Fl} (h : x.Of f) : Fl.mul f x (.fin 1) = x := by
  cases x <;> simp [Fl.mul, Fl.infMul]
  exact f.rnd_rep hf h
theorem Fl.one_mul {f : Fmt} (hf : f.Normal) {x : Fl} (h : x.Of f) : Fl.mul f (.fin 1) x = x := by
  rw [Fl.mul_comm, Fl.mul_one hf h]
theorem Fl.of_add {f : Fmt} (hf : f.Normal) (x y : Fl) : (Fl.add f x y).Of f := by
  cases x <;> cases y <;> simp only [Fl.add, Fl.Of]
  cases h : f.rnd _ with
  | fin q => exact f.rep_of_rnd hf h
  | _ => trivial
theorem Fl.of_infMul (f : Fmt) (s : Bool) (x : Fl) : (Fl.infMul s x).Of f := by
  cases x <;> simp only [Fl.infMul] <;> (repeat' split) <;> trivial
theorem Fl.of_rnd {f : Fmt} (hf : f.Normal) (q : ℚ) : (f.rnd q).Of f := by
  cases h : f.rnd q with
  | fin q => exact f.rep_of_rnd hf h
  | _ => trivial
theorem Fl.of_mul {f : Fmt} (hf : f.Normal) (x y : Fl) : (Fl.mul f x y).Of f := by
  cases x <;> cases y <;> simp only [Fl.mul] <;>
    first | trivial | exact Fl.of_infMul f _ _ | exact Fl.of_rnd hf _

/-- what assembled float stats satisfy: representable parts, and bounds within the default ones -/
structure FlWF (f : Fmt) (addend mult lo hi : Fl) : Prop where
  addend : addend.Of f
  mult : mult.Of f
  lo : Fl.max lo (.fin (-f.maxVal)) = lo
  hi : Fl.min hi (.fin f.maxVal) = hi

theorem Fl.max_assoc (a b c : Fl) : Fl.max (Fl.max a b) c = Fl.max a (Fl.max b c) := by
  cases a <;> cases b <;> cases c <;> simp [Fl.max]
  rename_i x y z
  split_ifs <;> first | rfl | linarith
theorem Fl.min_assoc (a b c : Fl) : Fl.min (Fl.min a b) c = Fl.min a (Fl.min b c) := by
  cases a <;> cases b <;> cases c <;> simp [Fl.min]
  rename_i x y z
  split_ifs <;> first | rfl | linarith

theorem Fl.max_absorb {d lo a : Fl} (h : Fl.max lo d = lo) : Fl.max lo (Fl.max d a) = Fl.max lo a := by
  rw [← Fl.max_assoc, h]
theorem Fl.min_absorb {d lo a : Fl} (h : Fl.min lo d = lo) : Fl.min lo (Fl.min d a) = Fl.min lo a := by
  rw [← Fl.min_assoc, h]
theorem Fl.max_keep {d lo a : Fl} (h : Fl.max lo d = lo) : Fl.max (Fl.max lo a) d = Fl.max lo a := by
  rw [Fl.max_assoc, Fl.max_comm a d, ← Fl.max_assoc, h]
theorem Fl.min_keep {d lo a : Fl} (h : Fl.min lo d = lo) : Fl.min (Fl.min lo a) d = Fl.min lo a := by
  rw [Fl.min_assoc, Fl.min_comm a d, ← Fl.min_assoc, h]

/-- operands are floats of the format; bounds are arbitrary -/
def statFloat.okFl {f : Fmt} : StatOp (statFloat (Fl.ops f)) → Prop
  | .add a => a.Of f
  | .mul a => a.Of f
  | .base a => a.Of f
  | _ => True
def statFloatAdditive.okFl {f : Fmt} : StatOp (statFloatAdditive (Fl.ops f)) → Prop
  | .add a => a.Of f
  | .mul a => a.Of f
  | .base a => a.Of f
  | _ => True
def statMult.okFl {f : Fmt} : StatOp (statMult (Fl.ops f)) → Prop
  | .mul a => a.Of f
  | .base a => a.Of f
  | _ => True

/-- C29 for the float stats, whatever the operands (NaN and infinities included) -/
theorem C29_floats (f : Fmt) (hf : f.Normal) :
    WriteIsJoin (statFloat (Fl.ops f)) (fun v => FlWF f v.addend v.mult v.min v.max) statFloat.okFl ∧
    WriteIsJoin (statFloatAdditive (Fl.ops f)) (fun v => FlWF f v.addend v.mult v.min v.max)
      statFloatAdditive.okFl ∧
    WriteIsJoin (statMult (Fl.ops f)) (fun v => FlWF f v.mult v.mult v.min v.max) statMult.okFl := by
  refine ⟨?_, ?_, ?_⟩ <;> intro o v hnb hok ⟨h1, h2, h3, h4⟩
  · cases o with
    | or x => exact x.elim
    | not x => exact x.elim
    | base x => exact absurd trivial hnb
    | add a => simp [StatOp.intoStat, StatOp.writeTo, h3, h4, Fl.mul_one hf h2, Fl.zero_add hf hok]
    | mul a => simp [StatOp.intoStat, StatOp.writeTo, h3, h4, Fl.add_zero hf h1, Fl.one_mul hf hok]
    | min a =>
      simp [StatOp.intoStat, StatOp.writeTo, h3, h4, Fl.mul_one hf h2, Fl.add_zero hf h1, Fl.max_absorb h3]
    | max a =>
      simp [StatOp.intoStat, StatOp.writeTo, h3, h4, Fl.mul_one hf h2, Fl.add_zero hf h1, Fl.min_absorb h4]
  · cases o with
    | or x => exact x.elim
    | not x => exact x.elim
    | base x => exact absurd trivial hnb
    | add a => simp [StatOp.intoStat, StatOp.writeTo, h3, h4, Fl.add_zero hf h2, Fl.zero_add hf hok]
    | mul a => simp [StatOp.intoStat, StatOp.writeTo, h3, h4, Fl.add_zero hf h1, Fl.zero_add hf hok]
    | min a =>
      simp [StatOp.intoStat, StatOp.writeTo, h3, h4, Fl.add_zero hf h2, Fl.add_zero hf h1, Fl.max_absorb h3]
    | max a =>
      simp [StatOp.intoStat, StatOp.writeTo, h3, h4, Fl.add_zero hf h2, Fl.add_zero hf h1, Fl.min_absorb h4]
  · cases o with
    | add x => exact x.elim
    | or x => exact x.elim
    | not x => exact x.elim
    | base x => exact absurd trivial hnb
    | mul a => simp [StatOp.intoStat, StatOp.writeTo, h3, h4, Fl.one_mul hf hok]
    | min a => simp [StatOp.intoStat, StatOp.writeTo, h3, h4, Fl.mul_one hf h2, Fl.max_absorb h3]
    | max a => simp [StatOp.intoStat, StatOp.writeTo, h3, h4, Fl.mul_one hf h2, Fl.min_absorb h4]

theorem FlWF.dflt_bounds (f : Fmt) :
    Fl.max (.fin (-f.maxVal)) (.fin (-f.maxVal)) = .fin (-f.maxVal) ∧
    Fl.min (.fin f.maxVal) (.fin f.maxVal) = .fin f.maxVal := by simp [Fl.max, Fl.min]

/-- the hypothesis of `C29_floats` holds for every value assembled from floats of the format -/
theorem C29_floats_reachable (f : Fmt) (hf : f.Normal) (tr : Tree (statFloat (Fl.ops f)))
    (hok : ∀ o ∈ tr.leaves, statFloat.okFl o) (v : StatFloat Fl) (hv : tr.run = .ok v) :
    FlWF f v.addend v.mult v.min v.max := by
  have hz : f.Rep 0 := ⟨0, 0, by simp, by simp, hf.emin_neg, by simp⟩
  have hd := FlWF.dflt_bounds f
  -- bases are leaves, so their operands are floats of the format too
  induction tr generalizing v with
  | dflt => cases hv; exact ⟨hz, Fl.rep_one hf, hd.1, hd.2⟩
  | base b => cases hv; exact ⟨hok (.base b) (by simp [Tree.leaves]), Fl.rep_one hf, hd.1, hd.2⟩
  | op t o ih =>
    obtain ⟨w, hw, hv⟩ := Res.bind_eq_ok.1 hv
    obtain ⟨h1, h2, h3, h4⟩ := ih (fun o ho => hok o (by simp [Tree.leaves, ho])) w hw
    have ho := hok o (by simp [Tree.leaves])
    cases o with
    | or x => exact x.elim
    | not x => exact x.elim
    | base x => cases hv; exact ⟨ho, Fl.rep_one hf, hd.1, hd.2⟩
    | add a => cases hv; exact ⟨Fl.of_add hf _ _, h2, h3, h4⟩
    | mul a => cases hv; exact ⟨h1, Fl.of_mul hf _ _, h3, h4⟩
    | min a => cases hv; exact ⟨h1, h2, Fl.max_keep h3, h4⟩
    | max a => cases hv; exact ⟨h1, h2, h3, Fl.min_keep h4⟩
  | join l r ihl ihr =>
    obtain ⟨a, ha, hv⟩ := Res.bind_eq_ok.1 hv
    obtain ⟨b, hb, hv⟩ := Res.bind_eq_ok.1 hv
    obtain ⟨h1, h2, h3, h4⟩ := ihl (fun o ho => hok o (by simp [Tree.leaves, ho])) a ha
    cases hv
    exact ⟨Fl.of_add hf _ _, Fl.of_mul hf _ _, Fl.max_keep h3, Fl.min_keep h4⟩

/-- C29 for the remaining stats: flags, existence, once, `bool` -/
theorem C29_sets (T : Type) [BitXorFlags T] [FlagSet T] (U : Type) :
    WriteIsJoin (statFlags T) (fun _ => True) (fun _ => True) ∧
    WriteIsJoin statExists (fun _ => True) (fun _ => True) ∧
    WriteIsJoin (statOnce U) (fun _ => True) (fun _ => True) ∧
    WriteIsJoin boolValue (fun _ => True) (fun _ => True) := by
  have hor : ∀ a : T, BitFlags.bor BitFlags.dflt a = a := fun a => FlagSet.ext fun f => by
    simp [FlagSet.has_or, FlagSet.has_default]
  have hor' : ∀ a : T, BitFlags.bor a BitFlags.dflt = a := fun a => FlagSet.ext fun f => by
    simp [FlagSet.has_or, FlagSet.has_default]
  refine ⟨?_, ?_, ?_, ?_⟩ <;> intro o v hnb _ _
  all_goals
    cases o with
    | add x => exact x.elim
    | mul x => exact x.elim
    | min x => exact x.elim
    | max x => exact x.elim
    | base x => exact absurd trivial hnb
    | or x => simp [StatOp.intoStat, StatOp.writeTo, hor, hor'] <;> (cases v <;> rfl)
    | not x => simp [StatOp.intoStat, StatOp.writeTo, hor, hor'] <;> (cases v <;> rfl)

/-- C29 fails for `Prioritized`: `Or` leaves the value alone, joining the stat built from it may replace it
by the default. -/
theorem C29_prioritized_refuted :
    let D := prioritized Nat 0 true
    (StatOp.or ⟨7, 5⟩ : StatOp D).writeTo ⟨3, 0⟩ = .ok ⟨3, 0⟩ ∧
    ((StatOp.or ⟨7, 5⟩ : StatOp D).intoStat >>= fun s => D.join ⟨3, 0⟩ s) = .ok ⟨0, 0⟩ := by
  exact ⟨by decide, by decide⟩

/-- C29 fails for `StatIntPercent`: adding `5` directly gives `15`, joining the stat built from it gives `16`
(and doubles the multiplier). -/
theorem C29_int_percent_refuted :
    let D := statIntPercent ⟨.i32, .prim, .debug⟩ .truncate 100
    ((StatOp.add 5 : StatOp D).writeTo (D.fromBase 10) >>= fun v => D.eval v) = .ok 15 ∧
    ((StatOp.add 5 : StatOp D).intoStat >>= fun s => D.join (D.fromBase 10) s >>= fun v => D.eval v)
      = .ok 32 := by
  exact ⟨by decide, by decide⟩

/-- C29, what holds for `Prioritized`: with `LAST = false` and a non-negative priority.  Missing: the cases
refuted above. -/
theorem C29_prioritized_partial (T : Type) (d : T) :
    WriteIsJoin (prioritized T d false) (fun v => 0 ≤ v.priority) (fun _ => True) := by
  intro o v hnb _ hv
  cases o with
  | add x => exact x.elim
  | mul x => exact x.elim
  | min x => exact x.elim
  | max x => exact x.elim
  | base x => exact absurd trivial hnb
  | or x => simp [StatOp.intoStat, StatOp.writeTo, not_lt.2 hv]
  | not x => simp [StatOp.intoStat, StatOp.writeTo, not_lt.2 hv]

example : StatInt.WF ⟨.i32, .prim, .debug⟩ ⟨5, -10, 10, 3⟩ ∧
    statInt.okOp (t := ⟨.i32, .prim, .debug⟩) (.mul 7) :=
  ⟨⟨by decide, by decide, by decide, by decide⟩, by show IntTy.InRange _ _; decide⟩

/-! ## C30 -/

/-- C30 for `StatInt`, every integer type and build -/
theorem C30_int (t : NumTy) (hb : 1 < t.prim.bits) (b : Int) (h : t.prim.InRange b) :
    BaseRoundTrip (statInt t) b b := by
  have h1 := IntTy.inRange_one hb
  constructor <;>
  simp [NumTy.add, NumTy.mul, NumTy.fit_inRange h, NumTy.fit_inRange h1, NumTy.max_eq, NumTy.min_eq,
    NumTy.minValue, NumTy.maxValue, h.1, h.2]

/-- rounding an integral fraction, unless it sits at the very end of the range in `Floor`/`Ceil` mode -/
theorem Frac.apply_int {t : NumTy} (hb : 1 < t.prim.bits) (R : Rounding) {b : Int} (h : t.prim.InRange b)
    (hf : R = .floor → b < 0 → t.prim.lo < b) (hc : R = .ceil → 0 ≤ b → b < t.prim.hi) :
    R.apply (Frac.ops t) ⟨b, 1⟩ = .ok ⟨b, 1⟩ := by
  have h1 := IntTy.inRange_one hb
  have h0 := t.prim.inRange_zero
  have htr : Frac.trunc t ⟨b, 1⟩ = .ok ⟨b, 1⟩ := by simp [Frac.trunc, Frac.div_one h]
  cases R with
  | truncate => exact htr
  | floor =>
    show Frac.floor t ⟨b, 1⟩ = _
    unfold Frac.floor
    split
    · rename_i hlt
      have hneg : b < 0 := by simpa [Frac.lt] using hlt
      have hr : t.prim.InRange (b - 1) := ⟨by have := hf rfl hneg; omega, by have := h.2; omega⟩
      simp [NumTy.sub, NumTy.add, NumTy.fit_inRange hr, NumTy.fit_inRange h, Frac.div_one h]
    · exact htr
  | ceil =>
    show Frac.ceil t ⟨b, 1⟩ = _
    unfold Frac.ceil
    split
    · exact htr
    · rename_i hlt
      have hneg : 0 ≤ b := by simpa [Frac.lt] using hlt
      have hr : t.prim.InRange (b + 1) := ⟨by have := h.1; omega, by have := hc rfl hneg; omega⟩
      simp [NumTy.sub, NumTy.add, NumTy.fit_inRange hr, NumTy.fit_inRange h, Frac.div_one h]
  | round =>
    show Frac.round t ⟨b, 1⟩ = _
    simp [Frac.round, Frac.absFract, Frac.fract, Frac.halfBound, NumTy.rem, NumTy.div, NumTy.add,
      NumTy.fit_inRange h1, Frac.lt, htr, h, h0]
  | truncateSigned =>
    rw [Frac.apply_truncateSigned]
    split
    · rename_i hlt
      have hpos : 0 < b := by simpa [Frac.lt] using hlt
      simp only [htr, Res.bind_ok, Frac.max, Frac.lt]
      by_cases h2 : 1 < b
      · simp [h2]
      · simp [show b = 1 by omega]
    · split
      · rename_i hlt
        have hneg : b < 0 := by simpa [Frac.lt] using hlt
        have hm1 : t.prim.InRange (-1) := by
          have := h.1
          refine ⟨by omega, by have := h0.2; omega⟩
        have hsub : Frac.sub t ⟨0, 1⟩ ⟨1, 1⟩ = .ok ⟨-1, 1⟩ := by
          simp [Frac.sub, Frac.addSub, NumTy.sub, NumTy.fit_inRange hm1, Frac.reduce, Frac.gcd,
            NumTy.fit_inRange h1, NumTy.div, hm1, h1]
        simp only [htr, hsub, Res.bind_ok, Frac.min, Frac.lt]
        simp [show ¬ (-1 < b) by omega]
      · rfl

/-- C30 for `StatIntFraction`, every integer type and build; see `C30_int_fraction_edge` for the excluded
values. -/
theorem C30_int_fraction_partial (t : NumTy) (hb : 1 < t.prim.bits) (R : Rounding) (b : Int)
    (h : t.prim.InRange b) (hf : R = .floor → b < 0 → t.prim.lo < b)
    (hc : R = .ceil → 0 ≤ b → b < t.prim.hi) : BaseRoundTrip (statIntFraction t R) b b := by
  have hb' : 1 < t.primInt.prim.bits := hb
  have hv : (⟨b, 1⟩ : Frac).Valid t.primInt := Frac.valid_int hb' h
  have h11 : (⟨1, 1⟩ : Frac).Valid t.primInt := Frac.valid_int hb' (IntTy.inRange_one hb)
  have e1 := Frac.one_mul hb' hv
  have e2 := Frac.one_mul hb' h11
  have e3 := Frac.apply_int hb' R (b := b) h hf hc
  have e4 : t.fromFraction ⟨b, 1⟩ = .ok b := by
    simp [NumTy.fromFraction, Frac.toInteger, Frac.trunc, Frac.div_one (t := t.primInt) h]
  constructor <;>
  simp [NumTy.add, NumTy.fit_inRange h, NumTy.max_eq, NumTy.min_eq, NumTy.minValue, NumTy.maxValue, h.1, h.2,
    Frac.newRaw, NumTy.intoFraction, e1, e2, e3, e4, show (Frac.ops t.primInt).one = ⟨1, 1⟩ from rfl]

/-- the excluded values do fail: in a debug build rounding down the smallest, and rounding up the largest,
value panics inside the rational arithmetic. -/
theorem C30_int_fraction_refuted :
    let t : NumTy := ⟨.i32, .prim, .debug⟩
    (statIntFraction t .floor).eval ((statIntFraction t .floor).fromBase t.prim.lo) = .error .panic ∧
    (statIntFraction t .ceil).eval ((statIntFraction t .ceil).fromBase t.prim.hi) = .error .panic := by
  exact ⟨by decide, by decide⟩

/-- building `b·S / S` yields `b / 1` -/
theorem Frac.new_scaled {t : NumTy} (hb : 1 < t.prim.bits) {b S : Int} (hS : 0 < S) (hSr : t.prim.InRange S)
    (h : t.prim.InRange b) : Frac.new t (b * S) S = .ok ⟨b, 1⟩ := by
  have h1 := IntTy.inRange_one hb
  have hg : Int.gcd (b * S) S = S := by rw [Int.gcd_mul_left_left]; omega
  unfold Frac.new Frac.reduce
  by_cases h0 : b = 0
  · simp [h0, hS.ne']
  by_cases hb1 : b = 1
  · simp [hb1, hS.ne']
  have hne : b * S ≠ S := by
    intro e
    exact hb1 (mul_right_cancel₀ hS.ne' (by rw [e, Int.one_mul]))
  simp only [h0, hS.ne', hne, Frac.gcd, hg, Int.mul_eq_zero, or_self, if_false]
  simp [h0, hS.ne', hne, Frac.gcd, NumTy.fit_inRange hSr, NumTy.div, h, h1]

/-- C30 for `StatIntPercentAdditive`, every build: as long as `b * SCALE` fits the integer type and `SCALE`
survives `from_i64` (C33). -/
theorem C30_int_percent_additive_partial (t : NumTy) (hb : 1 < t.prim.bits) (R : Rounding) (S b : Int)
    (hS : 0 < S) (hSr : t.prim.InRange S) (hfrom : t.fromI64 S = .ok S) (hbs : t.prim.InRange (b * S))
    (hf : R = .floor → b < 0 → t.prim.lo < b) (hc : R = .ceil → 0 ≤ b → b < t.prim.hi) :
    BaseRoundTrip (statIntPercentAdditive t R S) b b := by
  have hb' : 1 < t.primInt.prim.bits := hb
  have h0 := t.prim.inRange_zero
  have h : t.prim.InRange b := by
    obtain ⟨h1, h2⟩ := hbs
    have l0 := h0.1
    have u0 := h0.2
    constructor
    · by_cases hneg : 0 ≤ b
      · omega
      · nlinarith
    · by_cases hneg : b ≤ 0
      · omega
      · nlinarith
  have e1 : t.buildFraction (b * S) S = .ok ⟨b, 1⟩ := Frac.new_scaled (t := t.primInt) hb' hS hSr h
  have e3 := Frac.apply_int hb' R (b := b) h hf hc
  have e4 : t.fromFraction ⟨b, 1⟩ = .ok b := by
    simp [NumTy.fromFraction, Frac.toInteger, Frac.trunc, Frac.div_one (t := t.primInt) h]
  constructor <;>
  simp [NumTy.add, NumTy.mul, NumTy.fit_inRange h, NumTy.fit_inRange h0, NumTy.fit_inRange hSr,
    NumTy.fit_inRange hbs, NumTy.max_eq, NumTy.min_eq, NumTy.minValue, NumTy.maxValue, h.1, h.2, hfrom, e1, e3, e4]

/-- a base whose product with `SCALE` does not fit fails: panic in debug, wrong value in release -/
theorem C30_int_percent_additive_refuted :
    let D := statIntPercentAdditive ⟨.i32, .prim, .debug⟩ .truncate 100
    let E := statIntPercentAdditive ⟨.i32, .prim, .release⟩ .truncate 100
    D.eval (D.fromBase 21474837) = .error .panic ∧ E.eval (E.fromBase 21474837) = .ok (-21474835) := by
  exact ⟨by decide, by decide⟩

/-- `StatIntPercent` is not in the claim: joining a base into the default does not evaluate to it -/
theorem C30_int_percent_refuted :
    let D := statIntPercent ⟨.i32, .prim, .debug⟩ .truncate 100
    (D.join D.default (D.fromBase 10) >>= fun v => D.eval v) = .ok 22 := by decide

/-- C30 for the fraction stats, every integer type and build, every valid fraction inside the type's range -/
theorem C30_fractions (t : NumTy) (hb : 1 < t.prim.bits) (b : Frac) (h : b.Valid t) :
    BaseRoundTrip (statFloat (Frac.ops t)) b b ∧ BaseRoundTrip (statFloatAdditive (Frac.ops t)) b b ∧
    BaseRoundTrip (statMult (Frac.ops t)) b b := by
  have h11 : (⟨1, 1⟩ : Frac).Valid t := Frac.valid_int hb (IntTy.inRange_one hb)
  have h00 : (⟨0, 1⟩ : Frac).Valid t := Frac.valid_int hb t.prim.inRange_zero
  have hlo : (⟨t.prim.lo, 1⟩ : Frac).Valid t :=
    Frac.valid_int hb ⟨le_refl _, le_trans t.prim.inRange_zero.1 t.prim.inRange_zero.2⟩
  have hhi : (⟨t.prim.hi, 1⟩ : Frac).Valid t :=
    Frac.valid_int hb ⟨le_trans t.prim.inRange_zero.1 t.prim.inRange_zero.2, le_refl _⟩
  have b1 := (Frac.max_lo hb h).2
  have b2 := (Frac.min_hi hb h).2
  have b3 := (Frac.max_lo hb hlo).1
  have b4 := (Frac.min_hi hb hhi).1
  refine ⟨⟨?_, ?_⟩, ⟨?_, ?_⟩, ⟨?_, ?_⟩⟩ <;>
  simp [Frac.ops, Frac.newRaw, NumTy.minValue, NumTy.maxValue, Frac.zero_add hb h, Frac.one_mul hb h,
    Frac.mul_one hb h, Frac.one_mul hb h11, Frac.zero_add hb h00, Frac.zero_add hb h11, Frac.add_zero hb h11, b1, b2, b3, b4]

theorem Fl.rep_zero {f : Fmt} (hf : f.Normal) : f.Rep 0 := ⟨0, 0, by simp, by simp, hf.emin_neg, by simp⟩

/-- C30 for `f32`/`f64` stats: every finite float between `MIN` and `MAX` -/
theorem C30_floats (f : Fmt) (hf : f.Normal) (q : ℚ) (h : f.Rep q) (hq : |q| ≤ f.maxVal) :
    BaseRoundTrip (statFloat (Fl.ops f)) (.fin q) (.fin q) ∧
    BaseRoundTrip (statFloatAdditive (Fl.ops f)) (.fin q) (.fin q) ∧
    BaseRoundTrip (statMult (Fl.ops f)) (.fin q) (.fin q) := by
  obtain ⟨h1, h2⟩ := abs_le.1 hq
  have hz := Fl.rep_zero hf
  have ho := Fl.rep_one hf
  refine ⟨⟨?_, ?_⟩, ⟨?_, ?_⟩, ⟨?_, ?_⟩⟩ <;>
  simp [Fl.add, Fl.mul, Fl.max, Fl.min, f.rnd_rep hf h, f.rnd_rep hf hz, f.rnd_rep hf ho] <;>
  split_ifs <;> linarith

/-- C30 for flags, existence, `bool` and once -/
theorem C30_sets (T : Type) [BitXorFlags T] [FlagSetXor T] (x : T) (U : Type) (u : U) (b : Bool) :
    BaseRoundTrip (statFlags T) x x ∧ BaseRoundTrip statExists b b ∧ BaseRoundTrip boolValue b b ∧
    BaseRoundTrip (statOnce U) u (StatOnce.found u) := by
  have e : exclude x BitFlags.dflt = x := FlagSet.ext fun f => by
    simp [exclude, FlagSetXor.has_xor, FlagSet.has_and, FlagSet.has_default]
  have e1 : (BitFlags.bor BitFlags.dflt x : T) = x := FlagSet.ext fun f => by
    simp [FlagSet.has_or, FlagSet.has_default]
  have e2 : (BitFlags.bor BitFlags.dflt BitFlags.dflt : T) = BitFlags.dflt := FlagSet.ext fun f => by
    simp [FlagSet.has_or, FlagSet.has_default]
  refine ⟨⟨?_, ?_⟩, ⟨?_, ?_⟩, ⟨?_, ?_⟩, ⟨?_, ?_⟩⟩ <;> simp [e, e1, e2]
  rfl

example : Fmt.f32.Rep (5 / 2) ∧ |(5 / 2 : ℚ)| ≤ Fmt.f32.maxVal :=
  ⟨⟨5, -1, by norm_num, by norm_num [Fmt.f32], by norm_num [Fmt.f32], by norm_num [Fmt.f32]⟩,
    by norm_num [Fmt.maxVal, Fmt.f32]⟩
example : (⟨.i32, .prim, .debug⟩ : NumTy).fromI64 100 = .ok 100 ∧ IntTy.i32.InRange (21474836 * 100) :=
  ⟨by decide, by decide⟩
example : (⟨-7, 3⟩ : Frac).Valid ⟨.i32, .prim, .release⟩ := ⟨⟨by decide, by decide⟩, by decide, by decide⟩
end BSQ
