import Verif.Proofs.Simulate
import Verif.Props.Fraction
/-!
# C61: release builds, `Wrapping` and `Saturating` integers compute what checked arithmetic computes

The closed forms of C16, C20, C21 and C22 are about overflow-checked integers; `C61_*` carries them over to every
other kind of integer and build.
-/
namespace BSQ
open Contrib

/-- C61 for `StatInt` -/
theorem C61_statInt (t : NumTy) : Simulates (Retype.int t.checked t) :=
  .of_ops _ rfl
    (fun _ _ => (t.add_agrees _ _).bind fun _ => (t.mul_agrees _ _).bind fun _ => .refl _)
    (fun _ _ => (t.add_agrees _ _).bind fun _ => .refl _) (fun _ _ => (t.mul_agrees _ _).bind fun _ => .refl _)
    (fun _ x => x.elim) (fun _ x => x.elim) (fun _ _ => .refl _) (fun _ _ => .refl _) (fun _ => rfl)
    (fun v o h => ((t.mul_agrees _ _).bind fun _ => Agrees.refl _) o h)

/-- C61 for `StatIntFraction` -/
theorem C61_statIntFraction (t : NumTy) (R : Rounding) : Simulates (Retype.fraction t.checked t R) :=
  .of_ops _ rfl
    (fun _ _ => (t.add_agrees _ _).bind fun _ => (Frac.mul_agrees t.primInt _ _).bind fun _ => .refl _)
    (fun _ _ => (t.add_agrees _ _).bind fun _ => .refl _)
    (fun _ _ => (Frac.mul_agrees t.primInt _ _).bind fun _ => .refl _)
    (fun _ x => x.elim) (fun _ x => x.elim) (fun _ _ => .refl _) (fun _ _ => .refl _) (fun _ => rfl)
    (fun v o h => ((Frac.mul_agrees t.primInt _ _).bind fun _ => (Frac.apply_agrees t.primInt R _).bind fun _ =>
      Agrees.refl _) o h)

/-- C61 for `StatIntFloatMul`, for any float type and any casts -/
theorem C61_statIntFloatMul {F : Type} (t : NumTy) (O : FloatOps F) (toF : Int → F) (ofF : F → Int)
    (R : Rounding) : Simulates (Retype.floatMul t.checked t O toF ofF R) :=
  .of_ops _ rfl
    (fun _ _ => (t.add_agrees _ _).bind fun _ => .refl _)
    (fun _ _ => (t.add_agrees _ _).bind fun _ => .refl _) (fun _ _ => .refl _)
    (fun _ x => x.elim) (fun _ x => x.elim) (fun _ _ => .refl _) (fun _ _ => .refl _) (fun _ => rfl)
    (fun _ _ h => h)

/-- C61 for `StatIntPercentAdditive` -/
theorem C61_statIntPercentAdditive (t : NumTy) (R : Rounding) (S : Int) :
    Simulates (Retype.percentAdditive t.checked t R S) :=
  .of_ops _ rfl
    (fun _ _ => (t.add_agrees _ _).bind fun _ => (t.add_agrees _ _).bind fun _ => .refl _)
    (fun _ _ => (t.add_agrees _ _).bind fun _ => .refl _) (fun _ _ => (t.add_agrees _ _).bind fun _ => .refl _)
    (fun _ x => x.elim) (fun _ x => x.elim) (fun _ _ => .refl _) (fun _ _ => .refl _) (fun _ => rfl)
    (fun v o h => ((Agrees.refl (t.fromI64 S)).bind fun _ => (t.add_agrees _ _).bind fun _ =>
      (t.mul_agrees _ _).bind fun _ => (Agrees.refl (t.fromI64 S)).bind fun _ =>
      (Frac.reduce_agrees t.primInt _).bind fun _ => (Frac.apply_agrees t.primInt R _).bind fun _ =>
      Agrees.refl _) o h)

/-- C61 for `StatIntPercent` -/
theorem C61_statIntPercent (t : NumTy) (R : Rounding) (S : Int) :
    Simulates (Retype.percent t.checked t R S) :=
  .of_ops _ rfl
    (fun _ _ => (t.add_agrees _ _).bind fun _ => (Frac.add_agrees t.primInt _ _).bind fun _ => .refl _)
    (fun _ _ => (t.add_agrees _ _).bind fun _ => .refl _)
    (fun _ _ => (Agrees.refl (t.fromI64 S)).bind fun _ => (Frac.reduce_agrees t.primInt _).bind fun _ =>
      (Frac.mul_agrees t.primInt _ _).bind fun _ => .refl _)
    (fun _ x => x.elim) (fun _ x => x.elim) (fun _ _ => .refl _) (fun _ _ => .refl _) (fun _ => rfl)
    (fun v o h => ((Frac.mul_agrees t.primInt _ _).bind fun _ => (Frac.apply_agrees t.primInt R _).bind fun _ =>
      Agrees.refl _) o h)

/-- a value assembled and evaluated without overflow: the same over `i32` in a debug build, over `i32` in a
release build, over `Wrapping<i32>` and over `Saturating<i32>` -/
def simDemo : Tree (statIntFraction ⟨.i32, .prim, .debug⟩ .round) :=
  .join (.op (.base (100 : Int)) (.mul (⟨3, 2⟩ : Frac))) (.op (.op .dflt (.add (7 : Int))) (.max (150 : Int)))

example : simDemo.run = .ok ⟨107, -2147483648, 150, ⟨3, 2⟩⟩ ∧
    (statIntFraction ⟨.i32, .prim, .debug⟩ .round).eval ⟨107, -2147483648, 150, ⟨3, 2⟩⟩ = .ok (150 : Int) :=
  ⟨by decide, by decide⟩
example (t : NumTy) (h : t.prim = .i32) :
    ((Retype.fraction ⟨.i32, .prim, .debug⟩ t .round).tree simDemo).run = .ok ⟨107, -2147483648, 150, ⟨3, 2⟩⟩ := by
  have e : t.checked = ⟨.i32, .prim, .debug⟩ := by rw [NumTy.checked, h]
  have := (C61_statIntFraction t .round).assembles
  rw [e] at this
  exact this simDemo _ (by decide)

/-- the proviso is needed: where checked arithmetic overflows the conventions differ -/
theorem C61_overflow_differs :
    (statInt ⟨.i32, .prim, .debug⟩).add ⟨2147483647, 0, 0, 1⟩ (1 : Int) = .error .panic ∧
    (statInt ⟨.i32, .prim, .release⟩).add ⟨2147483647, 0, 0, 1⟩ (1 : Int) = .ok ⟨-2147483648, 0, 0, 1⟩ ∧
    (statInt ⟨.i32, .wrapping, .debug⟩).add ⟨2147483647, 0, 0, 1⟩ (1 : Int) = .ok ⟨-2147483648, 0, 0, 1⟩ ∧
    (statInt ⟨.i32, .saturating, .release⟩).add ⟨2147483647, 0, 0, 1⟩ (1 : Int) = .ok ⟨2147483647, 0, 0, 1⟩ :=
  ⟨by decide, by decide, by decide, by decide⟩

end BSQ
