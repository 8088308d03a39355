import Verif.Spec.Join
/-!
# When the sources of a query never panic
-/
namespace BSQ
variable {E : Env} {Q Ent : Type}

/-- A call that goes through whenever the operations computed by `C`, together with what the pair was assembled
from, satisfy `Fits` (for instance: their magnitudes add up within the integer type). -/
def Call.Reliable (s : StatInst E) (okOp : StatOp s.sv → Prop) (Fits : List (StatOp s.sv) → Prop)
    (c : Call E Q Ent) (C : Prog E Q Ent (List (StatOp s.sv))) : Prop :=
  ∀ (o : Oracle E Q Ent) (v : s.Val) (L ops : List (StatOp s.sv)), Assembles s.sv okOp v L →
    C.eval o = .ok ops → Fits (L ++ ops) → ∃ p', (c ⟨s, .val s.ty v⟩).eval o = .ok p'

/-- having less to assemble never hurts -/
def Hereditary {α : Type} (Fits : List α → Prop) : Prop := ∀ L M, M.Subperm L → Fits L → Fits M

/-- any assembly of fitting operations returns -/
def Returns {V : Type} (D : StatValue V) (okOp : StatOp D → Prop) (Fits : List (StatOp D) → Prop) : Prop :=
  ∀ t : Tree D, t.NoReset → (∀ o ∈ t.leaves, okOp o) → Fits t.leaves → ∃ v, t.run = .ok v

/-- The calls made for a query about `s` contribute the operations computed by `Cs`; together with those of the
start value, `L`, they always fit. -/
structure Supplied (J : Joined E Q Ent) (A : Addr E) (good : StatInst E → Prop) (s : StatInst E)
    (okOp : StatOp s.sv → Prop) (Fits : List (StatOp s.sv) → Prop) (L : List (StatOp s.sv))
    (calls : List (Call E Q Ent)) (Cs : List (Prog E Q Ent (List (StatOp s.sv)))) : Prop where
  calls : List.Forall₂ (fun c C => c.Contributes s okOp C ∧ c.Reliable s okOp Fits C ∧ C.Trusts (Req.About good))
    calls Cs
  fits : ∀ n opss, List.Forall₂ (fun C ops => Prog.eval (J.answer A n) C = .ok ops) Cs opss →
    Fits (L ++ opss.flatten)

/-- every query about a stat in `good` is supplied in this sense, and attributes are reported without asking
questions or panicking -/
structure Joined.AllSupplied (J : Joined E Q Ent) (A : Addr E) (good : StatInst E → Prop)
    (okOp : (s : StatInst E) → StatOp s.sv → Prop) (Fits : (s : StatInst E) → List (StatOp s.sv) → Prop) :
    Prop where
  storable : ∀ s, good s → Storable (E.layout s.ty)
  hereditary : ∀ s, good s → Hereditary (Fits s)
  value : ∀ s, good s → ∃ v L, J.world.startValue A s = .ok (.val s.ty v) ∧ Assembles s.sv (okOp s) v L ∧
    (∀ e q, ∃ Cs, Supplied J A good s (okOp s) (Fits s) L (J.statCalls e q) Cs) ∧
    (∀ a b q, ∃ Cs, Supplied J A good s (okOp s) (Fits s) L (J.relationCalls a b q) Cs)
  attr : ∀ e a, ∀ c ∈ J.attrCalls e a, ∃ b, c = .ret b

end BSQ
