import Verif.Spec.Demo
import Verif.Spec.Querier
/-!
# A small concrete world with queriers

Only used to show that hypotheses can be met and to give counterexamples.
-/
namespace BSQ

/-- qualifiers and entities of the demo world -/
abbrev DProg := Prog demo (BitVec 8) Nat
abbrev DCall := Call demo (BitVec 8) Nat

/-- user code: `if let Some((_, v)) = pair.cast::<IntStat>() { v.add(k) }` -/
def demoAdd (k : Int) : DCall := fun p => Prog.lift do
  let o ← p.cast demoAddr true
  match o with
  | some (_, v) => do
    let v' ← (demoSv true).add v k
    .ok (p.write true v')
  | none => .ok p

/-- the empty query -/
abbrev demoQ : QualifierQuery (BitVec 8) := .aggregate 0

/-- Entities 0 and 1 are `StatEntity`; 0 has children 2 and 3, 2 has child 4.  One global relation adds 1. -/
def demoWorld : World demo (BitVec 8) Nat where
  isStat e := e == 0 || e == 1
  children e := if e == 0 then some [2, 3] else if e == 2 then some [4] else none
  defaults := none
  relations := some [fun _ _ => demoAdd 1]
  cached := true
  placeholder := 99

/-- a component on every entity, adding 10 -/
def demoComp : CStream demo (BitVec 8) Nat where
  Item := Nat
  query e := some e
  stream _ _ _ := demoAdd 10
  attr _ it a := .ret (it == 1 && a == "one")

/-- a component on even entities, adding 100 when on a child -/
def demoChild : CStream demo (BitVec 8) Nat where
  Item := Nat
  query e := if e % 2 == 0 then some e else none
  stream _ it _ := demoAdd (100 * it)
  attr _ it a := .ret (it == 2 && a == "two")

/-- a relation component on entities 0 and 1 -/
def demoRel : CStream demo (BitVec 8) Nat where
  Item := Nat
  query e := if e < 2 then some e else none
  relation a b _ := demoAdd (1000 * a - 2000 * b)

/-- all three joined -/
def demoJoined : Joined demo (BitVec 8) Nat :=
  ((demoWorld.withComponent demoComp).withChildren demoChild).withRelation demoRel

example : demoJoined.answer demoAddr 1 (.stat 0 demoQ (demoInt 0)) =
    (.ok (some ⟨211, -2147483648, 2147483647, 1⟩) : Res (Option StatInt)) := rfl
example : demoJoined.answer demoAddr 1 (.relation 1 0 demoQ (demoInt 0)) =
    (.ok (some ⟨1001, -2147483648, 2147483647, 1⟩) : Res (Option StatInt)) := rfl
example : demoJoined.answer demoAddr 1 (.stat 0 demoQ (demoFlag 0)) =
    (.ok (some ⟨0, 0⟩) : Res (Option (StatFlags (BitVec 8)))) := rfl
example : demoJoined.answer demoAddr 1 (.stat 2 demoQ (demoInt 0)) = (.ok none : Res (Option StatInt)) := rfl

end BSQ
