import Verif.Model.Querier
import Verif.Model.Types.Float
import Verif.Model.Ieee
/-!
# tests/asset.rs on the model (tests, not proofs)

The asset store is the context of the child stream: handles 0, 1, 2 are loaded.
-/
namespace BSQ.Tests.Asset

/-- `Damage` (true) and `Defense` (false) -/
abbrev prog : Env where
  U := Unit
  El _ := StatFloat Fl
  sv _ := statFloat (Fl.ops .f32)
  layout _ := ⟨16, 8⟩
  opLayout _ := ⟨8, 4⟩
  S := Bool
  valTy _ := ()
  statLayout _ := ⟨0, 1⟩
  Sel _ := Unit
  asIndex _ := 0
  fromIndex _ _ := .ok ()
  statName {s} _ := if s then "Damage" else "Defense"
  values _ := [()]

def addr : Addr prog where
  at_ s := 1000 + s.toNat
  inj {a b} h := by revert h; cases a <;> cases b <;> simp

/-- the assets: damage -/
def assets : Nat → Option Fl
  | 0 => some (.fin 4)
  | 1 => some (.fin 8)
  | 2 => some (.fin 6)
  | _ => none

/-- `WeaponQuery`: handle and durability -/
def weapons : CStream prog (BitVec 32) Nat where
  Item := Nat × Fl
  query e := if e = 2 then some (0, .fin (1 / 2)) else if e = 3 then some (1, .fin 1)
    else if e = 4 then some (2, .fin 2) else none
  stream _ it _ p := Prog.lift do
    let o ← p.isThenCast addr (T := true) ()
    match o with
    | none => .ok p
    | some v =>
      match assets it.1 with
      | none => .ok p
      | some d => do
        let v' ← (statFloat (Fl.ops .f32)).add v (Fl.mul .f32 d it.2)
        .ok (p.write true v')

/-- entity 0 is `A` with child 2, entity 1 is `B` with children 3 and 4 -/
def world : World prog (BitVec 32) Nat where
  isStat e := e == 0 || e == 1
  children e := if e = 0 then some [2] else if e = 1 then some [3, 4] else none
  defaults := none
  relations := none
  cached := false
  placeholder := 99

def ask (e : Nat) (damage : Bool) : Res (Option Fl) :=
  (((world.withChildren weapons).queryEval addr 2 e (.aggregate 0) ⟨damage, 0⟩).run addr []).1

example : ask 0 true = .ok (some (.fin 2)) := by decide +kernel
example : ask 0 false = .ok (some (.fin 0)) := by decide +kernel
example : ask 1 true = .ok (some (.fin 20)) := by decide +kernel
example : ask 1 false = .ok (some (.fin 0)) := by decide +kernel

end BSQ.Tests.Asset
