import Verif.Model.Float
/-!
# Rounding modes  (src/rounding.rs)
-/
namespace BSQ

/-- The implementors of trait `Rounding` in the crate (rounding.rs:11-66). -/
inductive Rounding where
  | truncate
  | floor
  | ceil
  | round
  | truncateSigned
  deriving DecidableEq, Repr

/-- `Rounding::round` (rounding.rs:14-66) -/
def Rounding.apply {F : Type} (R : Rounding) (O : FloatOps F) (input : F) : Res F :=
  match R with
  | .truncate => O.trunc input                                    -- rounding.rs:15-17
  | .floor => O.floor input                                       -- rounding.rs:25-27
  | .ceil => O.ceil input                                         -- rounding.rs:35-37
  | .round => O.round input                                       -- rounding.rs:45-47
  | .truncateSigned =>                                            -- rounding.rs:57-66
    if O.lt O.zero input then do
      let x ← O.trunc input
      .ok (O.max x O.one)
    else if O.lt input O.zero then do
      let x ← O.trunc input
      let m ← O.sub O.zero O.one
      .ok (O.min x m)
    else .ok input

end BSQ
