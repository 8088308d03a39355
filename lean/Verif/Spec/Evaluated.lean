import Verif.Model.StatValue
/-!
# Evaluated queries
-/
namespace BSQ

/-- `out` is what evaluating the outcome `r` of a query comes to: failures and `None` stay, a value is evaluated, which may
fail itself -/
inductive Evaluates {V : Type} (D : StatValue V) : (r : Res (Option V)) → (out : Res (Option D.Out)) → Prop
  | failed (e : Err) : Evaluates D (.error e) (.error e)
  | none : Evaluates D (.ok none) (.ok none)
  | value (v : V) (x : D.Out) (h : D.eval v = .ok x) : Evaluates D (.ok (some v)) (.ok (some x))
  | evalFails (v : V) (e : Err) (h : D.eval v = .error e) : Evaluates D (.ok (some v)) (.error e)

end BSQ
