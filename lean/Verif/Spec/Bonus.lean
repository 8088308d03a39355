import Verif.Spec.ClosedForm
/-!
# What raises a stat
-/
namespace BSQ
open Contrib

/-- What does not make things worse: non-negative addends, multipliers that are at least `one` (which is `1` if
multipliers multiply and `0` if they add up), and lower bounds. -/
def Contrib.Raises {A M B : Type} [Zero A] [LE A] [LE M] (one : M) : Contrib A M B → Prop
  | .add a => 0 ≤ a
  | .mul m => one ≤ m
  | .atLeast _ => True
  | .atMost _ => False

/-- With further operations in `Bonus` the result gets no less, if those there were satisfy `Keep`. -/
def Grows {V : Type} {D : StatValue V} (Value : List (StatOp D) → D.Out → Prop) (le : D.Out → D.Out → Prop)
    (Keep : List (StatOp D) → Prop) (Bonus : StatOp D → Prop) : Prop :=
  ∀ L X out out', Keep L → (∀ o ∈ X, Bonus o) → Value L out → Value (L ++ X) out' → le out out'

variable {E : Env} {Q Ent : Type}

/-- The start value of `s` and the given calls, each of which can compute what it contributes at depth `n`, together
consist of the operations `ops`, which fit the number type. -/
def Joined.Gathers (J : Joined E Q Ent) (A : Addr E) (n : Nat) (s : StatInst E) (okOp : StatOp s.sv → Prop)
    (Fits : List (StatOp s.sv) → Prop) (calls : List (Call E Q Ent)) (ops : List (StatOp s.sv)) : Prop :=
  Storable (E.layout s.ty) ∧ ∃ v L Cs opss, J.world.startValue A s = .ok (.val s.ty v) ∧
    Assembles s.sv okOp v L ∧ List.Forall₂ (fun C ops => Prog.eval (J.answer A n) C = .ok ops) Cs opss ∧
    Supplied J A (fun _ => True) s okOp Fits L calls Cs ∧ ops = L ++ opss.flatten

end BSQ
