import Verif.Model.Ledger
import Verif.Spec.StatMap
import Verif.Spec.Flags
/-!
# What it means to handle owned values correctly
-/
namespace BSQ

namespace Mem
variable {U : Type}

/-- the value it happens to -/
def cell : Mem U → Cell
  | create x _ | use x _ | move x _ | drop x _ => x
/-- the type it happens at -/
def at_ : Mem U → U
  | create _ u | use _ u | move _ u | drop _ u => u
/-- a value comes into being -/
def begins : Mem U → Bool
  | create _ _ => true
  | _ => false
/-- a value is dropped or moved out -/
def ends : Mem U → Bool
  | move _ _ | drop _ _ => true
  | _ => false

end Mem

section
variable {U : Type}

/-- Whatever happens to a value happens after it came into being, at its own type, and not after it was dropped or
moved out.  In particular it is dropped or moved out at most once. -/
def Sound (log : List (Mem U)) : Prop :=
  ∀ before e after, log = before ++ e :: after →
    (e.begins = true → ∀ d ∈ before, d.cell ≠ e.cell) ∧
    (e.begins = false → Mem.create e.cell e.at_ ∈ before ∧ ∀ d ∈ before, d.ends = true → d.cell ≠ e.cell)

/-- the values that were neither dropped nor moved out -/
def unreleased (log : List (Mem U)) : List Cell :=
  ((log.filter (fun e => e.begins)).map Mem.cell).filter
    (fun x => !log.any (fun d => d.ends && d.cell == x))
end

/-! ### what is stored, seen from outside -/

variable {E : Env} {Q : Type}

/-- the keys of each map; a key occurs as often as it is stored -/
abbrev KState (E : Env) (Q : Type) := List (List (Key E Q))

namespace KState
variable [DecidableEq Q]

/-- change one map, counting leaks -/
def on (ks : KState E Q) (i : Nat) (f : List (Key E Q) → List (Key E Q) × Nat) : KState E Q × Nat :=
  match ks[i]? with
  | some k => (ks.set i (f k).1, (f k).2)
  | none => (ks, 0)

/-- storing under a key; something stored there before is leaked -/
def put (k : Key E Q) (l : List (Key E Q)) : List (Key E Q) × Nat :=
  if Storable (E.layout k.stat.ty) then (if k ∈ l then (l, 1) else (l ++ [k], 0)) else (l, 0)

open Classical in
/-- what each step does to the stored keys, and how many values it leaks: one for each insertion under a key in
use, one for each query that panics while joining -/
noncomputable def step [BitFlags Q] [FlagSet Q] (ks : KState E Q) : LOp E Q → KState E Q × Nat
  | .new => (ks ++ [[]], 0)
  | .insert i q s => ks.on i (put ⟨s, q⟩)
  | .modify i q s fails => ks.on i (fun l => if ⟨s, q⟩ ∈ l ∨ fails = true then (l, 0) else put ⟨s, q⟩ l)
  | .remove i q s => ks.on i (fun l => (l.erase ⟨s, q⟩, 0))
  | .removeAll i s => ks.on i (fun l => (l.filter (fun k => decide (k.stat ≠ s)), 0))
  | .clear i => ks.on i (fun _ => ([], 0))
  | .query i q s failsAt => ks.on i (fun l => (l,
      if Storable (E.layout s.ty) ∧ ∃ n, failsAt = some n ∧
        n < (l.filter (fun k => decide (k.stat = s) && decide (FlagSpec.Matches k.qual q))).length then 1 else 0))
  | .clone i failsAt =>
    match ks[i]? with
    | some l => (if ∃ n, failsAt = some n ∧ n < l.length then ks else ks ++ [l], 0)
    | none => (ks, 0)
  | .fromIter T items fails =>
    (if fails = false ∧ (items = [] ∨ Storable (E.layout (E.valTy T))) then ks ++ [items.map fun x => ⟨⟨T, x.2⟩, x.1⟩] else ks, 0)
  | .extend i T items => ks.on i (fun l =>
      (if Storable (E.layout (E.valTy T)) then l ++ items.map fun x => ⟨⟨T, x.2⟩, x.1⟩ else l, 0))
  | .dropMap i => (ks.eraseIdx i, 0)
  | .get _ _ _ => (ks, 0)
  | .iter _ _ => (ks, 0)

/-- how many values a program leaks -/
noncomputable def leaks [BitFlags Q] [FlagSet Q] (ks : KState E Q) : List (LOp E Q) → Nat
  | [] => 0
  | o :: os => (ks.step o).2 + leaks (ks.step o).1 os

end KState

/-! ### the cache and the defaults, seen from outside -/

namespace KHash
variable {K : Type} [DecidableEq K] (ty : K → E.U)

/-- what each step does to the stored keys, and how many values it leaks: one for each insertion under a key in use
and one for each `getDyn` of a key in use -/
def step (ks : List K) : HOp E K → List K × Nat
  | .insert k => if Storable (E.layout (ty k)) then (if k ∈ ks then (ks, 1) else (ks ++ [k], 0)) else (ks, 0)
  | .getDyn k => (ks, if k ∈ ks then 1 else 0)
  | .clear => ([], 0)
  | .patch _ _ | .lookup _ | .get _ => (ks, 0)

/-- how many values a program leaks -/
def leaks (ks : List K) : List (HOp E K) → Nat
  | [] => 0
  | o :: os => (step ty ks o).2 + leaks (step ty ks o).1 os

/-- the keys stored after a program -/
def kept (ks : List K) (os : List (HOp E K)) : List K := os.foldl (fun ks o => (step ty ks o).1) ks

/-- no `patch` gets as far as storing something under a key not in use -/
def Tame (ks : List K) : List (HOp E K) → Prop
  | [] => True
  | o :: os => (∀ k, o = .patch k false → k ∈ ks) ∧ Tame (step ty ks o).1 os

end KHash
end BSQ
