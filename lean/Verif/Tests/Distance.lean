import Verif.Model.Querier
import Verif.Spec.Querier
import Verif.Model.Types.Int
import Verif.Model.Types.Misc
/-!
# tests/distance.rs on the model (tests, not proofs)
-/
namespace BSQ.Tests.Distance

inductive Kind where
  | distance | allegiance | effects
  deriving DecidableEq

inductive Relation where
  | ally | enemy
  deriving DecidableEq

abbrev El : Kind → Type
  | .distance => StatOnce Int
  | .allegiance => StatOnce Relation
  | .effects => StatInt

abbrev sv : (u : Kind) → StatValue (El u)
  | .distance => statOnce Int
  | .allegiance => statOnce Relation
  | .effects => statInt ⟨.i32, .prim, .debug⟩

/-- the three stat types; `StatEffects` has the stats `Distance` (0) and `Allegiance` (1) -/
abbrev prog : Env where
  U := Kind
  El := El
  sv := sv
  layout _ := ⟨16, 8⟩
  opLayout _ := ⟨8, 4⟩
  S := Kind
  valTy s := s
  statLayout _ := ⟨1, 1⟩
  Sel s := match s with
    | .effects => Bool
    | _ => Unit
  asIndex {s} x := match s, x with
    | .effects, b => b.toNat
    | .distance, _ => 0
    | .allegiance, _ => 0
  fromIndex s i := match s with
    | .effects => .ok (i != 0)
    | .distance => .ok ()
    | .allegiance => .ok ()
  statName {s} x := match s, x with
    | .effects, false => "DistanceEffect"
    | .effects, true => "AllegianceEffect"
    | .distance, _ => "StatDistance"
    | .allegiance, _ => "StatAllegiance"
  values s := match s with
    | .effects => [false, true]
    | .distance => [()]
    | .allegiance => [()]

def addr : Addr prog where
  at_ s := match s with
    | .distance => 1000
    | .allegiance => 2000
    | .effects => 3000
  inj {a b} h := by revert h; cases a <;> cases b <;> simp

abbrev P := Prog prog Bool Nat

/-- run `f` on the value of `other`'s stat, if the pair is about it (`if let Some(v) = is_then_cast(..)`) -/
def onStat (p : Pair prog) {T : Kind} (other : prog.Sel T) (f : prog.El (prog.valTy T) → P (prog.El (prog.valTy T))) :
    P (Pair prog) :=
  (Prog.lift (p.isThenCast addr other)).bind fun
    | some v => (f v).bind fun v' => .ret (p.write T v')
    | none => .ret p

/-- the components of entities: 0 is `a`, 1 is `b`, 2 and 3 their children -/
structure State where
  pos : Nat → Option (Int × Int)
  alleg : Nat → Option Bool

def position (s : State) : CStream prog Bool Nat where
  Item := Int × Int
  query := s.pos
  relation a b _ p := onStat p (T := .distance) () fun v => .ret (v.set ((a.1 - b.1).natAbs + (a.2 - b.2).natAbs))

def allegiance (s : State) : CStream prog Bool Nat where
  Item := Bool
  query := s.alleg
  relation a b _ p := onStat p (T := .allegiance) () fun v => .ret (v.set (if a = b then .ally else .enemy))

def unwrap2 {T : Type} (o : Option (StatOnce T)) : P T :=
  match o with
  | some s => Prog.lift s.unwrap
  | none => .fail .panic

def distanceAura : CStream prog Bool Nat where
  Item := Nat
  query e := if e = 2 then some 1 else if e = 3 then some 0 else none
  stream this it q p := onStat p (T := .effects) false fun v =>
    .ask (.relation this it q ⟨.distance, 0⟩) fun o =>
      (unwrap2 o).bind fun d => Prog.lift ((sv .effects).add v d)

def allegianceAura : CStream prog Bool Nat where
  Item := Int × Nat
  query e := if e = 2 then some (5, 1) else if e = 3 then some (7, 0) else none
  stream this it q p := onStat p (T := .effects) true fun v =>
    .ask (.relation this it.2 q ⟨.allegiance, 0⟩) fun o =>
      (unwrap2 o).bind fun d => Prog.lift ((sv .effects).add v (if d = .ally then it.1 else 0))

def world : World prog Bool Nat where
  isStat e := e == 0 || e == 1
  children e := if e = 0 then some [2] else if e = 1 then some [3] else none
  defaults := none
  relations := none
  cached := true
  placeholder := 99

def querier (s : State) : Joined prog Bool Nat :=
  (((world.withRelation (allegiance s)).withRelation (position s)).withChildren allegianceAura).withChildren
    distanceAura

def s0 : State where
  pos e := if e = 0 then some (-1, 7) else if e = 1 then some (4, 5) else none
  alleg e := if e = 0 then some false else if e = 1 then some true else none
/-- after `position.get_mut(a).unwrap().0[1] = -7` -/
def s1 : State := { s0 with pos := fun e => if e = 0 then some (-1, -7) else s0.pos e }
/-- after `*allegiance.get_mut(b).unwrap() = Allegiance::Player` -/
def s2 : State := { s1 with alleg := fun e => if e < 2 then some false else none }

abbrev C := Cache prog Bool Nat

/-- `querier!().query_eval(e, &Aggregate(false), &stat)` -/
def ask (s : State) (e : Nat) (stat : Bool) (c : C) : Res (Option Int) × C :=
  ((querier s).queryEval addr 3 e (.aggregate false) ⟨.effects, stat.toNat⟩).run addr c

/-- the asserted results, in the order of the test -/
def script : List (Option (Res (Option Int))) :=
  let r1 := ask s0 0 false []
  let r2 := ask s0 1 false r1.2
  let r3 := ask s1 0 false r2.2
  let r4 := ask s1 1 false r3.2
  match Cache.clear r4.2 with
  | .error _ => []
  | .ok c =>
    let r5 := ask s1 0 false c
    let r6 := ask s1 1 false r5.2
    let r7 := ask s1 0 true r6.2
    let r8 := ask s1 1 true r7.2
    let r9 := ask s2 0 true r8.2
    let r10 := ask s2 1 true r9.2
    match Cache.clear r10.2 with
    | .error _ => []
    | .ok c =>
      let r11 := ask s2 0 true c
      let r12 := ask s2 1 true r11.2
      [r1, r2, r3, r4, r5, r6, r7, r8, r9, r10, r11, r12].map fun r => some r.1

example : script = [7, 7, 7, 7, 17, 17, 0, 0, 0, 0, 5, 7].map fun n => some (.ok (some n)) := by decide +kernel

end BSQ.Tests.Distance
