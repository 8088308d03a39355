import Verif.Model.Auras
import Mathlib.Algebra.Order.Group.Abs
import Mathlib.Algebra.Order.Ring.Int
/-!
# What the auras of tests/distance.rs add up to
-/
namespace BSQ.Auras

/-- `|x - x'| + |y - y'|` -/
def manhattan (a b : Int × Int) : Int := |a.1 - b.1| + |a.2 - b.2|

/-- entity `t` takes part in stat queries and has a position at distance `d` from that of `e` -/
def AtDistance (s : Scene) (e t : Nat) (d : Int) : Prop :=
  s.isStat t = true ∧ ∃ a b, s.pos e = some a ∧ s.pos t = some b ∧ d = manhattan a b

/-- an aura of strength `x.1` for friends of `x.2` is worth `d` to `e` -/
def Worth (s : Scene) (e : Nat) (x : Int × Nat) (d : Int) : Prop :=
  s.isStat x.2 = true ∧ ∃ a b, s.alleg e = some a ∧ s.alleg x.2 = some b ∧ d = if a = b then x.1 else 0

/-- the `DistanceAura`s of the children of `e` -/
def Scene.distAuras (s : Scene) (e : Nat) : List Nat := ((s.children e).getD []).filterMap s.distAura

/-- the `AllegianceAura`s of the children of `e` -/
def Scene.allegAuras (s : Scene) (e : Nat) : List (Int × Nat) := ((s.children e).getD []).filterMap s.allegAura

/-- a value of type `i32` -/
def InI32 (x : Int) : Prop := -2147483648 ≤ x ∧ x ≤ 2147483647

/-- the stat value that stands for `x` -/
def plain (x : Int) : StatInt := ⟨x, -2147483648, 2147483647, 1⟩

end BSQ.Auras
