import Verif.Model.StatMap
import Verif.Model.Types.Int
import Verif.Model.Types.Misc
/-!
# A small concrete program

Two stat types, one holding a `StatInt<i32>` and one holding a `StatFlags<u8>`; any number of stats of each.
It is only used to show that hypotheses can be met and to give counterexamples.
-/
namespace BSQ

/-- values of the two value types -/
abbrev demoEl : Bool → Type
  | true => StatInt
  | false => StatFlags (BitVec 8)

abbrev demoSv : (u : Bool) → StatValue (demoEl u)
  | true => statInt ⟨.i32, .prim, .debug⟩
  | false => statFlags (BitVec 8)

/-- the program -/
abbrev demo : Env where
  U := Bool
  El := demoEl
  sv := demoSv
  layout u := match u with
    | true => ⟨16, 8⟩
    | false => ⟨8, 8⟩
  opLayout u := match u with
    | true => ⟨8, 4⟩
    | false => ⟨2, 1⟩
  S := Bool
  valTy s := s
  statLayout _ := ⟨1, 1⟩
  Sel _ := Nat
  asIndex x := x
  fromIndex _ i := .ok i
  statName {s} x := match s with
    | true => "int" ++ toString x
    | false => "flag" ++ toString x
  values _ := [0, 1, 2]

/-- vtable of the integer stat first -/
def demoAddr : Addr demo where
  at_ s := match s with
    | true => 1000
    | false => 2000
  inj {a b} h := by revert h; cases a <;> cases b <;> simp

/-- the other way around -/
def demoAddr' : Addr demo where
  at_ s := match s with
    | true => 3000
    | false => 2000
  inj {a b} h := by revert h; cases a <;> cases b <;> simp

/-- integer stats -/
abbrev demoInt (i : Nat) : StatInst demo := ⟨true, i⟩
/-- flag stats -/
abbrev demoFlag (i : Nat) : StatInst demo := ⟨false, i⟩

end BSQ
