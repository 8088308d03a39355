import Verif.Model.SharedMap
import Verif.Spec.StatMap
/-!
# A plain map in which some keys are one

If the vtables of two stat types have one address, then stats of the two types with equal indices are the same stat
to a `StatMap`.  The map below is the plain map of `Verif.Spec.StatMap` with equality of keys replaced by being at
one spot.  A value put in under one key is seen under the others if the value types are equal.
-/
namespace BSQ
variable {E : Env} {Q : Type} (loc : E.S → Nat)

/-- stats that `StatMap` cannot tell apart -/
def SameStat (a b : StatInst E) : Prop := loc a.vt = loc b.vt ∧ a.index = b.index

/-- keys that `StatMap` cannot tell apart -/
def SameSpot (a b : Key E Q) : Prop := SameStat loc a.stat b.stat ∧ a.qual = b.qual

instance (a b : StatInst E) : Decidable (SameStat loc a b) := by unfold SameStat; infer_instance
instance [DecidableEq Q] (a b : Key E Q) : Decidable (SameSpot loc a b) := by unfold SameSpot; infer_instance

/-- a value seen at a value type -/
def Env.seen (u' : E.U) {u : E.U} (x : E.El u) : Option (E.El u') := if h : u = u' then some (h ▸ x) else none

namespace SpotMap
variable [DecidableEq Q]

/-- bind a key, and with it those at the same spot -/
def set (m : PMap E Q) (k : Key E Q) (v : k.Val) : PMap E Q :=
  fun j => if SameSpot loc j k then E.seen j.stat.ty v else m j

/-- unbind a key, and with it those at the same spot -/
def unset (m : PMap E Q) (k : Key E Q) : PMap E Q := fun j => if SameSpot loc j k then none else m j

/-- bind a key, which panics when values of its stat cannot be stored -/
def store (m : PMap E Q) (k : Key E Q) (v : k.Val) : Res (PMap E Q) :=
  if Storable (E.layout k.stat.ty) then .ok (set loc m k v) else .error .panic

/-- apply a function to all values of one stat and of those that cannot be told apart from it -/
def mapStat (m : PMap E Q) (s : StatInst E) (f : s.Val → s.Val) : PMap E Q :=
  fun j => if SameStat loc j.stat s then (m j).bind (fun x => (E.seen s.ty x).bind (fun y => E.seen j.stat.ty (f y))) else m j

/-- the meaning of each call -/
def step (m : PMap E Q) : MapOp E Q → Res (PMap E Q)
  | .insert q s v => store loc m ⟨s, q⟩ v
  | .insertBase q s b => store loc m ⟨s, q⟩ (s.sv.fromBase b)
  | .modify q s o =>
    match m ⟨s, q⟩ with
    | some v => o.writeTo v >>= fun v' => .ok (set loc m ⟨s, q⟩ v')
    | none => o.writeTo s.sv.default >>= fun v' => store loc m ⟨s, q⟩ v'
  | .modifyWith q s f =>
    match m ⟨s, q⟩ with
    | some v => f v >>= fun v' => .ok (set loc m ⟨s, q⟩ v')
    | none => f s.sv.default >>= fun v' => store loc m ⟨s, q⟩ v'
  | .getMut q s f =>
    match m ⟨s, q⟩ with
    | some v => f v >>= fun v' => .ok (set loc m ⟨s, q⟩ v')
    | none => .ok m
  | .iterMut s f => .ok (mapStat loc m s f)
  | .remove q s => .ok (unset loc m ⟨s, q⟩)
  | .removeAll s => .ok (fun k => if SameStat loc k.stat s then none else m k)
  | .clear => .ok PMap.empty

/-- a whole history, starting from a given map -/
def runFrom (m : PMap E Q) : List (MapOp E Q) → Res (PMap E Q)
  | [] => .ok m
  | o :: os => step loc m o >>= fun m' => runFrom m' os

/-- a history starting from the empty map -/
def run (os : List (MapOp E Q)) : Res (PMap E Q) := runFrom loc PMap.empty os
end SpotMap

/-! the same histories, run on the code -/
namespace Shared
variable [Ord Q]

def step (m : StatMap E Q) : MapOp E Q → Res (StatMap E Q)
  | .insert q s v => insert loc m q s v
  | .insertBase q s b => insertBase loc m q s b
  | .modify q s o => modify loc m q s o
  | .modifyWith q s f => modifyWith loc m q s f
  | .getMut q s f => getMut loc m q s f
  | .iterMut s f => iterMut loc m s (fun v => .ok (f v))
  | .remove q s => remove loc m q s >>= fun r => .ok r.1
  | .removeAll s => removeAll loc m s
  | .clear => StatMap.clear m

def runFrom (m : StatMap E Q) : List (MapOp E Q) → Res (StatMap E Q)
  | [] => .ok m
  | o :: os => step loc m o >>= fun m' => runFrom m' os

def run (os : List (MapOp E Q)) : Res (StatMap E Q) := runFrom loc StatMap.new os
end Shared
end BSQ
