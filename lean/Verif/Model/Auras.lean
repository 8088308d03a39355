import Verif.Model.Querier
import Verif.Model.Types.Int
import Verif.Model.Types.Misc
/-!
# The auras of tests/distance.rs

The stats, components and streams of the test, for any components on any entities.  Arithmetic is that of `i32` in a
build with overflow checks.  Entities are natural numbers.
-/
namespace BSQ.Auras

/-- the stat types (tests/distance.rs:16-22, 165-169) -/
inductive Kind where
  | distance | allegiance | effects
  deriving DecidableEq

/-- `Relation` (tests/distance.rs:60-64) -/
inductive Relation where
  | ally | enemy
  deriving DecidableEq, Repr

/-- `i32` with overflow checks -/
abbrev i32 : NumTy := ⟨.i32, .prim, .debug⟩

/-- the value types of the stats (tests/distance.rs:17, 21, 172) -/
abbrev El : Kind → Type
  | .distance => StatOnce Int
  | .allegiance => StatOnce Relation
  | .effects => StatInt

abbrev sv : (u : Kind) → StatValue (El u)
  | .distance => statOnce Int
  | .allegiance => statOnce Relation
  | .effects => statInt i32

/-- the `Stat` implementations, two of them derived (tests/distance.rs:16-22, 171-203); of `StatEffects`, `false` is
`Distance` and `true` is `Allegiance` -/
abbrev prog : Env where
  U := Kind
  El := El
  sv := sv
  layout _ := ⟨16, 8⟩
  opLayout _ := ⟨8, 4⟩
  S := Kind
  valTy s := s
  statLayout _ := ⟨1, 1⟩
  Sel s := match s with
    | .effects => Bool
    | _ => Unit
  asIndex {s} x := match s, x with
    | .effects, b => b.toNat
    | .distance, _ => 0
    | .allegiance, _ => 0
  fromIndex s i := match s with
    | .effects => .ok (i != 0)
    | .distance => .ok ()
    | .allegiance => .ok ()
  statName {s} x := match s, x with
    | .effects, false => "DistanceEffect"
    | .effects, true => "AllegianceEffect"
    | .distance, _ => "StatDistance"
    | .allegiance, _ => "StatAllegiance"
  values s := match s with
    | .effects => [false, true]
    | .distance => [()]
    | .allegiance => [()]

/-- what entities there are and the components they have (tests/distance.rs:39-43, 66-67, 159-163, 257-268) -/
structure Scene where
  isStat : Nat → Bool
  children : Nat → Option (List Nat)
  /-- `Position` -/
  pos : Nat → Option (Int × Int)
  /-- `Allegiance` -/
  alleg : Nat → Option Bool
  /-- `DistanceAura` -/
  distAura : Nat → Option Nat
  /-- `AllegianceAura` -/
  allegAura : Nat → Option (Int × Nat)
  /-- is there a `StatCache`? -/
  cached : Bool

variable (A : Addr prog)

abbrev P := Prog prog Bool Nat

/-- `if let Some(v) = stat_value.is_then_cast(other) { .. }` (tests/distance.rs:88, 126, 216, 238) -/
def onStat (p : Pair prog) {T : Kind} (other : prog.Sel T) (f : prog.El (prog.valTy T) → P (prog.El (prog.valTy T))) :
    P (Pair prog) :=
  (Prog.lift (p.isThenCast A other)).bind fun
    | some v => (f v).bind fun v' => .ret (p.write T v')
    | none => .ret p

/-- `(this.0[0] - other.0[0]).abs() + (this.0[1] - other.0[1]).abs()` (tests/distance.rs:89, 108) -/
def distance (a b : Int × Int) : Res Int := do
  let x ← i32.sub a.1 b.1
  let x ← i32.fit x.natAbs
  let y ← i32.sub a.2 b.2
  let y ← i32.fit y.natAbs
  i32.add x y

/-- `RelationStream for &Position`, `&mut Position` (tests/distance.rs:75-111) -/
def position (s : Scene) : CStream prog Bool Nat where
  Item := Int × Int
  query := s.pos
  relation a b _ p := onStat A p (T := .distance) () fun v => (Prog.lift (distance a b)).bind fun d => .ret (v.set d)

/-- `RelationStream for &Allegiance`, `&mut Allegiance` (tests/distance.rs:113-157) -/
def allegiance (s : Scene) : CStream prog Bool Nat where
  Item := Bool
  query := s.alleg
  relation a b _ p := onStat A p (T := .allegiance) () fun v => .ret (v.set (if a = b then .ally else .enemy))

/-- `.unwrap().unwrap()` (tests/distance.rs:220-221, 241-242) -/
def unwrap2 {T : Type} (o : Option (StatOnce T)) : P T :=
  match o with
  | some s => Prog.lift s.unwrap
  | none => .fail .panic

/-- `ComponentStream for &DistanceAura` (tests/distance.rs:205-225) -/
def distanceAura (s : Scene) : CStream prog Bool Nat where
  Item := Nat
  query := s.distAura
  stream this it q p := onStat A p (T := .effects) false fun v =>
    .ask (.relation this it q ⟨.distance, 0⟩) fun o =>
      (unwrap2 o).bind fun d => Prog.lift ((sv .effects).add v d)

/-- `ComponentStream for &AllegianceAura` (tests/distance.rs:227-249) -/
def allegianceAura (s : Scene) : CStream prog Bool Nat where
  Item := Int × Nat
  query := s.allegAura
  stream this it q p := onStat A p (T := .effects) true fun v =>
    .ask (.relation this it.2 q ⟨.allegiance, 0⟩) fun o =>
      (unwrap2 o).bind fun d => Prog.lift ((sv .effects).add v (match d with
        | .ally => it.1
        | .enemy => 0))

/-- the world: no defaults and no global relations are added (tests/distance.rs:253-262) -/
def world (s : Scene) : World prog Bool Nat where
  isStat := s.isStat
  children := s.children
  defaults := none
  relations := none
  cached := s.cached
  placeholder := 0

/-- `querier!()` (tests/distance.rs:275-283) -/
def querier (s : Scene) : Joined prog Bool Nat :=
  ((((world s).withRelation (allegiance A s)).withRelation (position A s)).withChildren (allegianceAura A s)).withChildren
    (distanceAura A s)

end BSQ.Auras
