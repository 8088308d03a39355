import Verif.Spec.Bounds
import Verif.Proofs.NumModel
import Verif.Proofs.FracStats
/-!
Helper lemmas: bounds of every numeric stat, read through `NumModel` with trivial addends and multipliers.
-/
namespace BSQ
open Contrib

/-- the bound an operation registers, everything else being irrelevant -/
def bcontrib {V : Type} {D : StatValue V} {B : Type} (bval : D.BoundsT → Option B) :
    StatOp D → Contrib Unit Unit B
  | .min b => match bval b with
    | some x => .atLeast x
    | none => .add ()
  | .max b => match bval b with
    | some x => .atMost x
    | none => .add ()
  | _ => .add ()

theorem mem_bcontrib_atLeast {V : Type} {D : StatValue V} {B : Type} {bval : D.BoundsT → Option B}
    {l : List (StatOp D)} {x : B} :
    Contrib.atLeast x ∈ l.map (bcontrib bval) ↔ ∃ b, StatOp.min b ∈ l ∧ bval b = some x := by
  rw [List.mem_map]
  constructor
  · rintro ⟨o, ho, h⟩
    cases o <;> simp only [bcontrib, reduceCtorEq] at h
    all_goals
      split at h <;> cases h <;> exact ⟨_, ho, by assumption⟩
  · rintro ⟨b, hb, h⟩
    exact ⟨_, hb, by simp [bcontrib, h]⟩

theorem mem_bcontrib_atMost {V : Type} {D : StatValue V} {B : Type} {bval : D.BoundsT → Option B}
    {l : List (StatOp D)} {x : B} :
    Contrib.atMost x ∈ l.map (bcontrib bval) ↔ ∃ b, StatOp.max b ∈ l ∧ bval b = some x := by
  rw [List.mem_map]
  constructor
  · rintro ⟨o, ho, h⟩
    cases o <;> simp only [bcontrib, reduceCtorEq] at h
    all_goals
      split at h <;> cases h <;> exact ⟨_, ho, by assumption⟩
  · rintro ⟨b, hb, h⟩
    exact ⟨_, hb, by simp [bcontrib, h]⟩

section
variable {A M B : Type} [LinearOrder B]

theorem le_floorOf {lo x : B} {C : List (Contrib A M B)} (h : Contrib.atLeast x ∈ C) : x ≤ floorOf lo C := by
  induction C with
  | nil => simp at h
  | cons c C ih =>
    rw [List.mem_cons] at h
    rcases h with rfl | h
    · simp [floorOf]
    · cases c <;> simp [floorOf, ih h]

theorem lo_le_floorOf (lo : B) (C : List (Contrib A M B)) : lo ≤ floorOf lo C := by
  induction C with
  | nil => simp [floorOf]
  | cons c C ih => cases c <;> simp [floorOf, ih]

theorem floorOf_le {lo u : B} {C : List (Contrib A M B)} (h0 : lo ≤ u)
    (h : ∀ y, Contrib.atLeast y ∈ C → y ≤ u) : floorOf lo C ≤ u := by
  induction C with
  | nil => exact h0
  | cons c C ih =>
    have ih := ih fun y hy => h y (by simp [hy])
    cases c <;> simp_all [floorOf]

theorem floorOf_cases (lo : B) (C : List (Contrib A M B)) :
    floorOf lo C = lo ∨ Contrib.atLeast (floorOf lo C) ∈ C := by
  induction C with
  | nil => simp [floorOf]
  | cons c C ih =>
    cases c with
    | atLeast b =>
      simp only [floorOf]
      rcases le_total b (floorOf lo C) with h | h
      · rw [max_eq_right h]
        rcases ih with ih | ih
        · exact .inl ih
        · exact .inr (by simp [ih])
      · rw [max_eq_left h]; simp
    | _ => simpa [floorOf] using ih

theorem capOf_le {hi x : B} {C : List (Contrib A M B)} (h : Contrib.atMost x ∈ C) : capOf hi C ≤ x := by
  induction C with
  | nil => simp at h
  | cons c C ih =>
    rw [List.mem_cons] at h
    rcases h with rfl | h
    · simp [capOf]
    · cases c <;> simp [capOf, ih h]

theorem capOf_le_hi (hi : B) (C : List (Contrib A M B)) : capOf hi C ≤ hi := by
  induction C with
  | nil => simp [capOf]
  | cons c C ih => cases c <;> simp [capOf, ih]
end

/-- bounds hold for every stat with a bounds reading whose evaluation clamps -/
theorem NumModel.bounds {V : Type} {D : StatValue V} {A M B : Type} [AddCommMonoid A] [CommMonoid M]
    [LinearOrder B] (N : NumModel D A M B) (bval : D.BoundsT → Option B)
    (h1 : ∀ (l : List (StatOp D)) x, Contrib.atLeast x ∈ l.map N.contrib ↔
      ∃ b, StatOp.min b ∈ l ∧ bval b = some x)
    (h2 : ∀ (l : List (StatOp D)) x, Contrib.atMost x ∈ l.map N.contrib ↔
      ∃ b, StatOp.max b ∈ l ∧ bval b = some x)
    (tr : Tree D) (v : V) (hr : tr.NoReset) (hok : ∀ o ∈ tr.leaves, N.okOp o) (hv : tr.run = .ok v)
    (out x : B) (hc : out = clampTo x (N.lo v) (N.hi v)) : BoundsRespected tr bval N.lo0 out := by
  have r := N.rep tr v hr hok hv
  have hlo := r.lo
  have hhi := r.hi
  have hle : N.lo v ≤ out := by rw [hc]; exact le_max_right _ _
  refine ⟨?_, ?_, ?_, ?_⟩
  · intro b y hb hy
    have := le_floorOf (lo := N.lo0) ((h1 _ _).2 ⟨b, hb, hy⟩)
    rw [← hlo] at this
    exact this.trans hle
  · intro b y hb hy h0 hmin
    have h3 := capOf_le (hi := N.hi0) ((h2 _ _).2 ⟨b, hb, hy⟩)
    have h4 := floorOf_le (C := tr.leaves.map N.contrib) h0 (fun z hz => by
      obtain ⟨a, ha, hz⟩ := (h1 _ _).1 hz
      exact hmin a z ha hz)
    rw [← hhi] at h3; rw [← hlo] at h4
    rw [hc]
    exact max_le ((min_le_right _ _).trans h3) h4
  · intro a y b z ha hy hb hz hzy h0
    have h3 := capOf_le (hi := N.hi0) ((h2 _ _).2 ⟨b, hb, hz⟩)
    have h4 := le_floorOf (lo := N.lo0) ((h1 _ _).2 ⟨a, ha, hy⟩)
    have hout : out = floorOf N.lo0 (tr.leaves.map N.contrib) := by
      rw [← hhi] at h3
      rw [hc, hlo]
      exact max_eq_right (((min_le_right _ _).trans h3).trans (hzy.le.trans h4))
    rcases floorOf_cases N.lo0 (tr.leaves.map N.contrib) with h5 | h5
    · refine ⟨a, y, ha, hy, ?_⟩
      rw [hout]; exact le_antisymm (by rw [h5]; exact h0) h4
    · obtain ⟨m, hm, hmz⟩ := (h1 _ _).1 h5
      exact ⟨m, _, hm, hmz, hout⟩
  · exact (lo_le_floorOf N.lo0 _).trans (by rw [← hlo]; exact hle)


/-! ## Integer bounds: any overflow behaviour -/

/-- the bounds reading of a stat with integer bounds -/
def NumModel.ofInt {V : Type} (t : NumTy) (D : StatValue V) (bval : D.BoundsT → Int) (lo hi : V → Int)
    (hd : lo D.default = t.prim.lo ∧ hi D.default = t.prim.hi)
    (hb : ∀ b, lo (D.fromBase b) = t.prim.lo ∧ hi (D.fromBase b) = t.prim.hi)
    (hadd : ∀ v x v', D.add v x = .ok v' → lo v' = lo v ∧ hi v' = hi v)
    (hmul : ∀ v x v', D.mul v x = .ok v' → lo v' = lo v ∧ hi v' = hi v)
    (hor : ∀ v x v', D.or v x = .ok v' → lo v' = lo v ∧ hi v' = hi v)
    (hnot : ∀ v x v', D.not v x = .ok v' → lo v' = lo v ∧ hi v' = hi v)
    (hmin : ∀ v x v', D.min v x = .ok v' → lo v' = t.max (lo v) (bval x) ∧ hi v' = hi v)
    (hmax : ∀ v x v', D.max v x = .ok v' → lo v' = lo v ∧ hi v' = t.min (hi v) (bval x))
    (hj : ∀ a b c, D.join a b = .ok c → lo c = t.max (lo a) (lo b) ∧ hi c = t.min (hi a) (hi b)) :
    NumModel D Unit Unit Int where
  ok _ := True
  okOp _ := True
  contrib := bcontrib fun b => some (bval b)
  addend _ := ()
  mult _ := ()
  lo := lo
  hi := hi
  lo0 := t.prim.lo
  hi0 := t.prim.hi
  dflt := ⟨trivial, rfl, rfl, hd⟩
  base b _ := ⟨trivial, rfl, rfl, hb b⟩
  step o v v' hb _ _ h := by
    refine ⟨trivial, rfl, rfl, ?_⟩
    cases o with
    | add x => exact hadd v x v' h
    | mul x => exact hmul v x v' h
    | or x => exact hor v x v' h
    | not x => exact hnot v x v' h
    | min x =>
      obtain ⟨h1, h2⟩ := hmin v x v' h
      exact ⟨by rw [h1, NumTy.max_eq, max_comm]; rfl, h2⟩
    | max x =>
      obtain ⟨h1, h2⟩ := hmax v x v' h
      exact ⟨h1, by rw [h2, NumTy.min_eq, min_comm]; rfl⟩
    | base x => exact absurd trivial hb
  join a b c _ _ h := by
    refine ⟨trivial, rfl, rfl, ?_⟩
    obtain ⟨h1, h2⟩ := hj a b c h
    exact ⟨by rw [h1, NumTy.max_eq], by rw [h2, NumTy.min_eq]⟩

macro "int_bounds" : tactic => `(tactic| (
  intros
  simp only [Res.bind_eq_ok, Except.ok.injEq] at *
  first
  | (rename_i h; subst h; exact ⟨rfl, rfl⟩)
  | (rename_i h; obtain ⟨_, _, h⟩ := h; subst h; exact ⟨rfl, rfl⟩)
  | (rename_i h; obtain ⟨_, _, _, _, h⟩ := h; subst h; exact ⟨rfl, rfl⟩)
  | (rename_i h; obtain ⟨_, _, _, _, _, _, h⟩ := h; subst h; exact ⟨rfl, rfl⟩)))

def statInt.bmodel (t : NumTy) : NumModel (statInt t) Unit Unit Int :=
  .ofInt t (statInt t) id StatInt.min StatInt.max ⟨rfl, rfl⟩ (fun _ => ⟨rfl, rfl⟩)
    (by int_bounds) (by int_bounds) (by int_bounds) (by int_bounds) (by int_bounds) (by int_bounds)
    (by int_bounds)

def statIntFraction.bmodel (t : NumTy) (R : Rounding) : NumModel (statIntFraction t R) Unit Unit Int :=
  .ofInt t (statIntFraction t R) id StatIntFraction.min StatIntFraction.max ⟨rfl, rfl⟩ (fun _ => ⟨rfl, rfl⟩)
    (by int_bounds) (by int_bounds) (by int_bounds) (by int_bounds) (by int_bounds) (by int_bounds)
    (by int_bounds)

def statIntFloatMul.bmodel {F : Type} (t : NumTy) (O : FloatOps F) (toF : Int → F) (ofF : F → Int)
    (R : Rounding) : NumModel (statIntFloatMul t O toF ofF R) Unit Unit Int :=
  .ofInt t (statIntFloatMul t O toF ofF R) id StatIntFloatMul.min StatIntFloatMul.max ⟨rfl, rfl⟩
    (fun _ => ⟨rfl, rfl⟩)
    (by int_bounds) (by int_bounds) (by int_bounds) (by int_bounds) (by int_bounds) (by int_bounds)
    (by int_bounds)

def statIntPercentAdditive.bmodel (t : NumTy) (R : Rounding) (S : Int) :
    NumModel (statIntPercentAdditive t R S) Unit Unit Int :=
  .ofInt t (statIntPercentAdditive t R S) id StatIntPercentAdditive.min StatIntPercentAdditive.max ⟨rfl, rfl⟩
    (fun _ => ⟨rfl, rfl⟩)
    (by int_bounds) (by int_bounds) (by int_bounds) (by int_bounds) (by int_bounds) (by int_bounds)
    (by int_bounds)

def statIntPercent.bmodel (t : NumTy) (R : Rounding) (S : Int) :
    NumModel (statIntPercent t R S) Unit Unit Int :=
  .ofInt t (statIntPercent t R S) id StatIntPercent.min StatIntPercent.max ⟨rfl, rfl⟩
    (fun _ => ⟨rfl, rfl⟩)
    (by int_bounds) (by int_bounds) (by int_bounds) (by int_bounds) (by int_bounds) (by int_bounds)
    (by int_bounds)

/-! ## Float bounds -/
namespace Fl

theorem ext_none {x : Fl} : x.ext = none ↔ x = .nan := by cases x <;> simp [ext]

/-- order position, NaN placed arbitrarily -/
def pos (x : Fl) : WithBot (WithTop ℚ) := x.ext.getD ⊥

theorem min_not_nan {a b : Fl} (h : a ≠ .nan) : Fl.min a b ≠ .nan := by
  cases a <;> cases b <;> simp_all [Fl.min]
theorem min_not_nan' {a b : Fl} (h : b ≠ .nan) : Fl.min a b ≠ .nan := by
  cases a <;> cases b <;> simp_all [Fl.min]
theorem max_not_nan {a b : Fl} (h : a ≠ .nan) : Fl.max a b ≠ .nan := by
  cases a <;> cases b <;> simp_all [Fl.max]

theorem pos_min {a b : Fl} (ha : a ≠ .nan) (hb : b ≠ .nan) : (Fl.min a b).pos = Min.min a.pos b.pos := by
  cases a <;> cases b <;> simp_all [Fl.min, pos, ext]
  rename_i x y
  rcases lt_or_ge y x with h | h
  · rw [if_pos h, min_eq_right (by exact_mod_cast h.le)]
  · rw [if_neg (not_lt.2 h), min_eq_left (by exact_mod_cast h)]

theorem pos_max {a b : Fl} (ha : a ≠ .nan) (hb : b ≠ .nan) : (Fl.max a b).pos = Max.max a.pos b.pos := by
  cases a <;> cases b <;> simp_all [Fl.max, pos, ext]
  rename_i x y
  rcases lt_or_ge y x with h | h
  · rw [if_pos h, max_eq_left (by exact_mod_cast h.le)]
  · rw [if_neg (not_lt.2 h), max_eq_right (by exact_mod_cast h)]

theorem ext_eq {a : Fl} (h : a ≠ .nan) : a.ext = some a.pos := by cases a <;> simp_all [pos, ext]

theorem pos_inj {a b : Fl} (ha : a ≠ .nan) (hb : b ≠ .nan) (h : a.pos = b.pos) : a = b := by
  cases a <;> cases b <;> simp_all [pos, ext]

theorem max_nan_right (a : Fl) : Fl.max a .nan = a := by cases a <;> rfl
theorem min_nan_right (a : Fl) : Fl.min a .nan = a := by cases a <;> rfl
theorem min_nan_left (a : Fl) : Fl.min .nan a = a := by cases a <;> rfl
end Fl

/-- the bounds reading of a stat with float bounds; `ok` says neither bound is NaN -/
def NumModel.ofFl {V : Type} (f : Fmt) (D : StatValue V) (bval : D.BoundsT → Fl) (lo hi : V → Fl)
    (hd : lo D.default = .fin (-f.maxVal) ∧ hi D.default = .fin f.maxVal)
    (hb : ∀ b, lo (D.fromBase b) = .fin (-f.maxVal) ∧ hi (D.fromBase b) = .fin f.maxVal)
    (hadd : ∀ v x v', D.add v x = .ok v' → lo v' = lo v ∧ hi v' = hi v)
    (hmul : ∀ v x v', D.mul v x = .ok v' → lo v' = lo v ∧ hi v' = hi v)
    (hor : ∀ v x v', D.or v x = .ok v' → lo v' = lo v ∧ hi v' = hi v)
    (hnot : ∀ v x v', D.not v x = .ok v' → lo v' = lo v ∧ hi v' = hi v)
    (hmin : ∀ v x v', D.min v x = .ok v' → lo v' = Fl.max (lo v) (bval x) ∧ hi v' = hi v)
    (hmax : ∀ v x v', D.max v x = .ok v' → lo v' = lo v ∧ hi v' = Fl.min (hi v) (bval x))
    (hj : ∀ a b c, D.join a b = .ok c → lo c = Fl.max (lo a) (lo b) ∧ hi c = Fl.min (hi a) (hi b)) :
    NumModel D Unit Unit (WithBot (WithTop ℚ)) where
  ok v := lo v ≠ .nan ∧ hi v ≠ .nan
  okOp _ := True
  contrib := bcontrib fun b => (bval b).ext
  addend _ := ()
  mult _ := ()
  lo v := (lo v).pos
  hi v := (hi v).pos
  lo0 := (Fl.fin (-f.maxVal)).pos
  hi0 := (Fl.fin f.maxVal).pos
  dflt := ⟨by rw [hd.1, hd.2]; simp, rfl, rfl, by rw [hd.1], by rw [hd.2]⟩
  base b _ := ⟨by rw [(hb b).1, (hb b).2]; simp, rfl, rfl, by rw [(hb b).1]; rfl, by rw [(hb b).2]; rfl⟩
  step o v v' hb _ hok h := by
    cases o with
    | add x => obtain ⟨h1, h2⟩ := hadd v x v' h; rw [h1, h2]; exact ⟨hok, rfl, rfl, rfl, rfl⟩
    | mul x => obtain ⟨h1, h2⟩ := hmul v x v' h; rw [h1, h2]; exact ⟨hok, rfl, rfl, rfl, rfl⟩
    | or x => obtain ⟨h1, h2⟩ := hor v x v' h; rw [h1, h2]; exact ⟨hok, rfl, rfl, rfl, rfl⟩
    | not x => obtain ⟨h1, h2⟩ := hnot v x v' h; rw [h1, h2]; exact ⟨hok, rfl, rfl, rfl, rfl⟩
    | min x =>
      obtain ⟨h1, h2⟩ := hmin v x v' h
      rw [h1, h2]
      refine ⟨⟨Fl.max_not_nan hok.1, hok.2⟩, rfl, rfl, ?_⟩
      by_cases hn : bval x = .nan
      · simp [bcontrib, hn, Fl.ext, Fl.max_nan_right, floorOf, capOf]
      · simp only [bcontrib, Fl.ext_eq hn, Fl.pos_max hok.1 hn, floorOf, capOf, max_comm, and_self]
    | max x =>
      obtain ⟨h1, h2⟩ := hmax v x v' h
      rw [h1, h2]
      refine ⟨⟨hok.1, Fl.min_not_nan hok.2⟩, rfl, rfl, ?_⟩
      by_cases hn : bval x = .nan
      · simp [bcontrib, hn, Fl.ext, Fl.min_nan_right, floorOf, capOf]
      · simp only [bcontrib, Fl.ext_eq hn, Fl.pos_min hok.2 hn, floorOf, capOf, min_comm, and_self]
    | base x => exact absurd trivial hb
  join a b c ha hb h := by
    obtain ⟨h1, h2⟩ := hj a b c h
    rw [h1, h2]
    exact ⟨⟨Fl.max_not_nan ha.1, Fl.min_not_nan ha.2⟩, rfl, rfl, Fl.pos_max ha.1 hb.1, Fl.pos_min ha.2 hb.2⟩

def statFloat.bmodel (f : Fmt) : NumModel (statFloat (Fl.ops f)) Unit Unit (WithBot (WithTop ℚ)) :=
  .ofFl f (statFloat (Fl.ops f)) id StatFloat.min StatFloat.max ⟨rfl, rfl⟩ (fun _ => ⟨rfl, rfl⟩)
    (by int_bounds) (by int_bounds) (by int_bounds) (by int_bounds) (by int_bounds) (by int_bounds)
    (by int_bounds)

def statFloatAdditive.bmodel (f : Fmt) :
    NumModel (statFloatAdditive (Fl.ops f)) Unit Unit (WithBot (WithTop ℚ)) :=
  .ofFl f (statFloatAdditive (Fl.ops f)) id StatFloatAdditive.min StatFloatAdditive.max ⟨rfl, rfl⟩
    (fun _ => ⟨rfl, rfl⟩)
    (by int_bounds) (by int_bounds) (by int_bounds) (by int_bounds) (by int_bounds) (by int_bounds)
    (by int_bounds)

def statMult.bmodel (f : Fmt) : NumModel (statMult (Fl.ops f)) Unit Unit (WithBot (WithTop ℚ)) :=
  .ofFl f (statMult (Fl.ops f)) id StatMult.min StatMult.max ⟨rfl, rfl⟩ (fun _ => ⟨rfl, rfl⟩)
    (by int_bounds) (by int_bounds) (by int_bounds) (by int_bounds) (by int_bounds) (by int_bounds)
    (by int_bounds)

end BSQ
