import Verif.Model.Env
/-!
# The `match_stat!` macro  (src/lib.rs:220-245)
-/
namespace BSQ
variable {E : Env}

/-- One arm of `match_stat!`.  Bodies are arbitrary code acting on the value they are given and on other
state `σ` (captured variables); they may panic. -/
inductive Arm (E : Env) (σ : Type) where
  /-- `(ident @ T, value) => body` (lib.rs:222-230) -/
  | ty (T : E.S) (body : σ → E.Sel T → E.El (E.valTy T) → Res (σ × E.El (E.valTy T)))
  /-- `(stat, value) => body` (lib.rs:231-239) -/
  | stat {T : E.S} (x : E.Sel T) (body : σ → E.El (E.valTy T) → Res (σ × E.El (E.valTy T)))

/-- The expansion of `match_stat!(p => { arms…, _ => last })` (lib.rs:220-245).  Without a `_` arm the
innermost `else` is `()` or missing: `last := none` (lib.rs:243-244). -/
def matchStat {σ : Type} (A : Addr E) (last : Option (σ → Pair E → Res (σ × Pair E))) :
    List (Arm E σ) → σ → Pair E → Res (σ × Pair E)
  | [], st, p =>
    match last with
    | some body => body st p
    | none => .ok (st, p)
  | .ty T body :: arms, st, p => do
    let r ← p.cast A T
    match r with
    | some (x, v) => do
      let o ← body st x v
      .ok (o.1, p.write T o.2)
    | none => matchStat A last arms st p
  | .stat (T := T) x body :: arms, st, p => do
    let r ← p.isThenCast A x
    match r with
    | some v => do
      let o ← body st v
      .ok (o.1, p.write T o.2)
    | none => matchStat A last arms st p

end BSQ
