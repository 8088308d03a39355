import Verif.Model.Plugin
import Verif.Spec.StatMap
/-!
# What the registries should do
-/
namespace BSQ
variable {E : Env}

/-- one registration of a default or a bound -/
inductive DefOp (E : Env) where
  | default (s : StatInst E) (v : s.Val)
  | min (s : StatInst E) (b : s.sv.BoundsT)
  | max (s : StatInst E) (b : s.sv.BoundsT)

/-- the registered value of each stat, if any -/
abbrev DMap (E : Env) := (s : StatInst E) → Option s.Val

namespace DMap
def empty : DMap E := fun _ => none

/-- the value of a stat: the registered one, or the default of its type -/
def value (d : DMap E) (s : StatInst E) : s.Val := (d s).getD s.sv.default

/-- register a value, which panics when it cannot be stored -/
def store (d : DMap E) (s : StatInst E) (v : s.Val) : Res (DMap E) :=
  if Storable (E.layout s.ty) then .ok (fun t => if h : t = s then some (h ▸ v) else d t) else .error .panic

/-- a default replaces the registered value, a bound is applied to the current value -/
def step (d : DMap E) : DefOp E → Res (DMap E)
  | .default s v => d.store s v
  | .min s b => s.sv.min (d.value s) b >>= fun v => d.store s v
  | .max s b => s.sv.max (d.value s) b >>= fun v => d.store s v

def runFrom (d : DMap E) : List (DefOp E) → Res (DMap E)
  | [] => .ok d
  | o :: os => d.step o >>= fun d' => d'.runFrom os

def run (os : List (DefOp E)) : Res (DMap E) := empty.runFrom os
end DMap

/-- the stat an operation is about -/
def DefOp.stat : DefOp E → StatInst E
  | .default s _ | .min s _ | .max s _ => s

/-- bounds are only registered for stats among `known`, or given a default earlier in the list -/
def DefOp.BoundsLast (known : List (StatInst E)) : List (DefOp E) → Prop
  | [] => True
  | .default s _ :: os => BoundsLast (s :: known) os
  | .min s _ :: os => s ∈ known ∧ BoundsLast known os
  | .max s _ :: os => s ∈ known ∧ BoundsLast known os

/-- the same history on the code -/
def Defaults.step (A : Addr E) (d : Defaults E) : DefOp E → Res (Defaults E)
  | .default s v => Defaults.insert A d s v
  | .min s b => Defaults.patch A d s (.min b)
  | .max s b => Defaults.patch A d s (.max b)

def Defaults.runFrom (A : Addr E) (d : Defaults E) : List (DefOp E) → Res (Defaults E)
  | [] => .ok d
  | o :: os => Defaults.step A d o >>= fun d' => Defaults.runFrom A d' os

def Defaults.run (A : Addr E) (os : List (DefOp E)) : Res (Defaults E) := Defaults.runFrom A [] os

end BSQ
