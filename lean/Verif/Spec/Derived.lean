import Verif.Spec.Derive
import Verif.Model.Env
/-!
# Programs whose stat types are derived
-/
namespace BSQ
open Derive

/-- the item that `#[derive(Stat)]` stands on -/
inductive Derive.StatItem where
  | unitStruct (ident : String)
  | enum (vs : List Variant)

/-- the names its values get -/
def Derive.StatItem.idents : StatItem → List String
  | .unitStruct i => [i]
  | .enum vs => vs.map (·.ident)

/-- compiler and macro accept it -/
def Derive.StatItem.Ok : StatItem → Prop
  | .unitStruct _ => True
  | .enum vs => Accepted vs

/-- what the macro makes of it -/
def Derive.StatItem.expand : StatItem → Option Impl
  | .unitStruct i => some (Derive.unitStruct i)
  | .enum vs => Derive.enum vs

/-- The stat types of the program are derived: `item` tells from what, and the methods of each are those generated for
it.  A value is known by its position among the variants. -/
structure Derived (E : Env) where
  item : E.S → StatItem
  impl : E.S → Impl
  ok : ∀ T, (item T).Ok
  made : ∀ T, (item T).expand = some (impl T)
  pos : {T : E.S} → E.Sel T → Nat
  pos_inj : ∀ {T : E.S} (x y : E.Sel T), pos x = pos y → x = y
  pos_iff : ∀ (T : E.S) (i : Nat), (∃ x : E.Sel T, pos x = i) ↔ i < (item T).idents.length
  name : ∀ {T : E.S} (x : E.Sel T), (impl T).name (pos x) = some (E.statName x)
  asIndex : ∀ {T : E.S} (x : E.Sel T), (impl T).asIndex (pos x) = some (E.asIndex x)
  fromIndex : ∀ (T : E.S) (n : Nat), (E.fromIndex T n).map pos = (impl T).fromIndex n
  values : ∀ T : E.S, (E.values T).map pos = (impl T).values

end BSQ
