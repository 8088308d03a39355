import Verif.Spec.Plugin
/-!
# Which registrations of one stat give the right default
-/
namespace BSQ
variable {E : Env}

/-- The registrations of one stat, in order, that work: none; those starting with a default; and those starting with
one bound, whose operation fits in a buffer, directly followed by a default (which discards the bound). -/
def DefOp.Fine : List (DefOp E) → Prop
  | [] => True
  | .default _ _ :: _ => True
  | .min s _ :: .default _ _ :: _ => Storable (E.opLayout s.ty)
  | .max s _ :: .default _ _ :: _ => Storable (E.opLayout s.ty)
  | _ => False

open Classical in
/-- the registrations of one stat -/
noncomputable def DefOp.about (s : StatInst E) (os : List (DefOp E)) : List (DefOp E) :=
  os.filter fun o => decide (o.stat = s)

end BSQ
