import Verif.Spec.Join
/-!
# Entities that carry `StatMap`s
-/
namespace BSQ
variable {E : Env} {Q Ent : Type}

/-- A component that holds a `StatMap`.  `stored e` is what has been stored in the one of `e`: each map is what a
history of calls left, and `stored` is what that history means. -/
structure MapComp [BitFlags Q] [Ord Q] (A : Addr E) (Ent : Type) where
  map : Ent → Option (StatMap E Q)
  stored : Ent → PMap E Q
  reached : ∀ e m, map e = some m → ∃ h, StatMap.run A h = .ok m ∧ PMap.run h = .ok (stored e)

variable [BitFlags Q] [Ord Q] {A : Addr E}

/-- the `ComponentStream` such a component has: it hands everything over to the map (stream.rs:130-154,
stat_map.rs:363-378) -/
def MapComp.stream (c : MapComp (Q := Q) A Ent) : CStream E Q Ent where
  Item := StatMap E Q
  query := c.map
  stream this m q := m.asStream A this q

/-- All sources are maps: `own` on the entity itself, `items` on its children. -/
structure OnlyMaps (J : Joined E Q Ent) (own items : List (MapComp (Q := Q) A Ent)) : Prop where
  comp : J.comp.leaves = own.map MapComp.stream
  child : J.child.leaves = items.map MapComp.stream
  rel : J.rel.leaves = []
  globals : J.world.relations.getD [] = []

/-- the places where the maps for an entity are -/
def mapPlaces (J : Joined E Q Ent) (own items : List (MapComp (Q := Q) A Ent)) (e : Ent) :
    List (MapComp (Q := Q) A Ent × Ent) :=
  own.map (·, e) ++ items.flatMap fun c => ((J.world.children e).getD []).map (c, ·)

/-- `L` lists, once each, what is stored for the stat `s` at a place under qualifiers that match the query -/
structure MatchesAt [FlagSet Q] (q : QualifierQuery Q) (s : StatInst E)
    (at_ : MapComp (Q := Q) A Ent × Ent) (L : List (Qualifier Q × s.Val)) : Prop where
  once : (L.map (·.1)).Nodup
  mem : ∀ k v, (k, v) ∈ L ↔
    (at_.1.map at_.2).isSome ∧ at_.1.stored at_.2 ⟨s, k⟩ = some v ∧ FlagSpec.Matches k q

/-- the value type of `s` is `V`, with the operations `D` -/
def StatInst.Is (s : StatInst E) {V : Type} (D : StatValue V) : Prop :=
  (⟨s.Val, s.sv⟩ : (V : Type) × StatValue V) = ⟨V, D⟩

section
variable {X : (V : Type) × StatValue V} {V : Type} {D : StatValue V} (h : X = ⟨V, D⟩)
/-- a value read as what it is -/
def asVal (v : X.1) : V := cast (congrArg (·.1) h) v
/-- a result read as what it is -/
def asOut (x : X.2.Out) : D.Out := cast (congrArg (fun x : (V : Type) × StatValue V => x.2.Out) h) x
end

/-- the largest of numbers -/
def largest (a : Int) (l : List Int) : Int := l.foldl max a
/-- the smallest of numbers -/
def smallest (a : Int) (l : List Int) : Int := l.foldl min a

/-- the numbers of integer stats add and multiply up within the type, even without their signs -/
structure SmallInts (t : NumTy) (l : List StatInt) : Prop where
  addend : ∀ v ∈ l, t.prim.InRange v.addend
  mult : ∀ v ∈ l, t.prim.InRange v.mult
  sum : (l.map fun v => |v.addend|).sum ≤ t.prim.hi
  prod : (l.map fun v => max 1 |v.mult|).prod ≤ t.prim.hi
  both : (l.map fun v => |v.addend|).sum * (l.map fun v => max 1 |v.mult|).prod ≤ t.prim.hi

end BSQ
