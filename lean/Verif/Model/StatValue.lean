import Verif.Model.Basic
/-!
# trait `StatValue` and `StatOperation`  (src/operations.rs)
-/
namespace BSQ

/-- trait `StatValue` (operations.rs:46-73) as a dictionary.  `&mut self` methods return the new value.
The bodies may panic (integer overflow, zero denominators), hence `Res`.  The default bodies of
`add … max` do nothing (operations.rs:63-70).  `join_by_ref` (operations.rs:51-53) is `join` of a clone;
no implementor in the crate overrides it, so the model has `join` only. -/
structure StatValue (V : Type) where
  Out : Type
  AddT : Type
  MulT : Type
  BitT : Type
  BoundsT : Type
  BaseT : Type
  /-- `Default::default()` -/
  default : V
  join : V → V → Res V
  eval : V → Res Out
  add : V → AddT → Res V := fun v _ => .ok v
  mul : V → MulT → Res V := fun v _ => .ok v
  not : V → BitT → Res V := fun v _ => .ok v
  or : V → BitT → Res V := fun v _ => .ok v
  min : V → BoundsT → Res V := fun v _ => .ok v
  max : V → BoundsT → Res V := fun v _ => .ok v
  fromBase : BaseT → V

/-- enum `StatOperation<S>` (operations.rs:6-14) -/
inductive StatOp {V : Type} (D : StatValue V) where
  | add (x : D.AddT)
  | mul (x : D.MulT)
  | or (x : D.BitT)
  | not (x : D.BitT)
  | min (x : D.BoundsT)
  | max (x : D.BoundsT)
  | base (x : D.BaseT)

namespace StatOp
variable {V : Type} {D : StatValue V}

/-- `StatOperation::write_to` (operations.rs:21-31) -/
def writeTo (o : StatOp D) (to : V) : Res V :=
  match o with
  | .add item => D.add to item
  | .mul item => D.mul to item
  | .or item => D.or to item
  | .not item => D.not to item
  | .min item => D.min to item
  | .max item => D.max to item
  | .base item => .ok (D.fromBase item)

/-- `StatOperation::into_stat` (operations.rs:33-37) -/
def intoStat (o : StatOp D) : Res V := o.writeTo D.default
end StatOp

/-- `impl StatValue for bool` (operations.rs:75-99); `or`/`not` are the no-op trait defaults.
`Unsupported` (operations.rs:42) has no values: `Empty`. -/
abbrev boolValue : StatValue Bool where
  Out := Bool
  AddT := Empty
  MulT := Empty
  BitT := Bool
  BoundsT := Empty
  BaseT := Bool
  default := false
  join a b := .ok (a || b)
  eval a := .ok a
  fromBase b := b

end BSQ
