import Verif.Model.MatchStat
import Verif.Spec.Join
/-!
# Sources written with `match_stat!` whose arms apply operations
-/
namespace BSQ
variable {E : Env} {Q Ent : Type}

/-- An arm of `match_stat!` whose body applies operations to the value, one after the other: always the same ones, for one
stat, or some that depend on the stat, for a stat type. -/
inductive OpArm (E : Env) where
  | stat {T : E.S} (x : E.Sel T) (ops : List (StatOp (E.sv (E.valTy T))))
  | ty (T : E.S) (ops : E.Sel T → List (StatOp (E.sv (E.valTy T))))

/-- operations applied one after the other -/
def applyOps {V : Type} {D : StatValue V} : List (StatOp D) → V → Res V
  | [], v => .ok v
  | o :: os, v => o.writeTo v >>= applyOps os

namespace OpArm
/-- the arm as code -/
def arm : OpArm E → Arm E Unit
  | stat x ops => .stat x fun st v => applyOps ops v >>= fun v' => .ok (st, v')
  | ty T ops => .ty T fun st x v => applyOps (ops x) v >>= fun v' => .ok (st, v')

/-- the arm is for this stat -/
def Is (s : StatInst E) : OpArm E → Prop
  | stat x _ => s = E.asEntry x
  | ty T _ => s.vt = T

/-- the stat type the arm mentions -/
def statTy : OpArm E → E.S
  | stat (T := T) _ _ => T
  | ty T _ => T

/-- the operations of the first arm for the stat, none if there is no such arm -/
inductive Selects : List (OpArm E) → (s : StatInst E) → List (StatOp s.sv) → Prop
  | none (s : StatInst E) : Selects [] s []
  | stat {T : E.S} (x : E.Sel T) (ops : List (StatOp (E.asEntry x).sv)) (rest : List (OpArm E)) :
      Selects (stat x ops :: rest) (E.asEntry x) ops
  | ty (s : StatInst E) (x : E.Sel s.vt) (hx : E.fromIndex s.vt s.index = .ok x) (ops : E.Sel s.vt → List (StatOp s.sv))
      (rest : List (OpArm E)) : Selects (ty s.vt ops :: rest) s (ops x)
  | skip {a : OpArm E} {s : StatInst E} {rest : List (OpArm E)} {ops : List (StatOp s.sv)} (ha : ¬ a.Is s)
      (h : Selects rest s ops) : Selects (a :: rest) s ops

/-- the source: `match_stat!(pair => { arms })` -/
def call (A : Addr E) (arms : List (OpArm E)) : Call E Q Ent := fun p =>
  Prog.lift (matchStat A none (arms.map arm) () p >>= fun r => .ok r.2)
end OpArm

/-- the body of the arm is not undefined behaviour -/
def Arm.Defined {σ : Type} : Arm E σ → Prop
  | .ty _ body => ∀ st x v, body st x v ≠ .error .ub
  | .stat _ body => ∀ st v, body st v ≠ .error .ub

end BSQ
