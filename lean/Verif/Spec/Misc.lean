import Verif.Spec.Unordered
import Verif.Spec.Flags
import Verif.Spec.Rational
import Verif.Model.Types.Misc
import Verif.Model.Types.Int
/-!
# Specifications for the non-numeric stats
-/
namespace BSQ

/-- A flag type whose `^` is symmetric difference. -/
class FlagSetXor (T : Type) [BitXorFlags T] extends FlagSet T where
  has_xor : ∀ (a b : T) f, has (BitXorFlags.bxor a b) f ↔ ((has a f ∧ ¬ has b f) ∨ (¬ has a f ∧ has b f))

instance {w : Nat} : FlagSetXor (BitVec w) where
  toFlagSet := inferInstance
  has_xor a b f := by
    simp only [BitXorFlags.bxor, FlagSet.has, BitVec.getElem_xor]
    cases a[f.val] <;> cases b[f.val] <;> simp

instance : FlagSetXor Bool where
  toFlagSet := inferInstance
  has_xor a b f := by
    simp only [BitXorFlags.bxor, FlagSet.has]
    cases a <;> cases b <;> simp

/-- flag `f` is set by the operation (`Or` or a base value) -/
def StatOp.Sets {T : Type} [BitXorFlags T] [FlagSet T] (f : FlagSet.Flag T) : StatOp (statFlags T) → Prop
  | .or x => FlagSet.has x f
  | .base x => FlagSet.has x f
  | _ => False

/-- flag `f` is cleared by the operation (`Not`) -/
def StatOp.Clears {T : Type} [BitXorFlags T] [FlagSet T] (f : FlagSet.Flag T) : StatOp (statFlags T) → Prop
  | .not x => FlagSet.has x f
  | _ => False

/-- the value an operation provides to a `StatExists` -/
def StatOp.existsArg : StatOp statExists → Bool
  | .or x => x
  | .base x => x
  | .not _ => false

/-- the value an operation provides to a `StatOnce` -/
def StatOp.onceArg {T : Type} : StatOp (statOnce T) → Option T
  | .or x => some x
  | .base x => some x
  | .not _ => none

/-- what should be found given the provided values -/
def onceSpec {T : Type} : List T → StatOnce T
  | [] => .notFound
  | [x] => .found x
  | _ => .foundMultiple

/-- apply operations one after another -/
def StatOp.applyAll {V : Type} {D : StatValue V} (os : List (StatOp D)) (v : V) : Res V :=
  match os with
  | [] => .ok v
  | o :: os => o.writeTo v >>= fun v' => applyAll os v'

/-- join values one after another -/
def joinList {V : Type} (D : StatValue V) (v : V) : List V → Res V
  | [] => .ok v
  | x :: xs => D.join v x >>= fun v' => joinList D v' xs

/-- The documented result of `Prioritized`: `w` is in the list, nothing has a higher priority, and among
those of the same priority it is the first (`last = false`) or the last (`last = true`). -/
def IsPrioritized {T : Type} (last : Bool) (l : List (Prioritized T)) (w : Prioritized T) : Prop :=
  ∃ pre post, l = pre ++ w :: post ∧
    if last then (∀ p ∈ pre, p.priority ≤ w.priority) ∧ (∀ p ∈ post, p.priority < w.priority)
    else (∀ p ∈ pre, p.priority < w.priority) ∧ (∀ p ∈ post, p.priority ≤ w.priority)

/-- `b`, coming later, takes over from `a` -/
def Prioritized.Yields {T : Type} (last : Bool) (a b : Prioritized T) : Prop :=
  if last then a.priority ≤ b.priority else a.priority < b.priority

/-- how operations on a `StatIntPercent` read: multipliers are `m / S` and multiply up -/
def statIntPercent.contrib {t : NumTy} {R : Rounding} {S : Int} :
    StatOp (statIntPercent t R S) → Contrib ℤ ℚ ℤ
  | .add a => .add a
  | .mul m => .mul ((m : ℚ) / S)
  | .min b => .atLeast b
  | .max b => .atMost b
  | .base b => .add b

end BSQ
