import Verif.Spec.MapQuery
/-!
# Effects that convert a share of one kind of a stat into another

"Add 50% of the character's magic damage to physical damage" (README.md:45-54, lib.rs:52-66).
-/
namespace BSQ
variable {E : Env} {Q Ent : Type}

/-- Such an effect, as a component on the entities for which `on` holds.  Queries that `applies` picks out (those for
physical damage) get the `share` of what the exact query `Exact { any_of, all_of }` (magic damage) for the same stat
of the same entity evaluates to. -/
structure Conversion (E : Env) (Q Ent : Type) where
  T : E.S
  stat : E.Sel T
  anyOf : Q
  allOf : Q
  applies : QualifierQuery Q → Bool
  share : (E.asEntry stat).sv.Out → (E.asEntry stat).sv.AddT
  on : Ent → Bool

/-- Its `ComponentStream`, written like the streams of tests/distance.rs:205-225:

`if applies(qualifier) { if let Some(v) = stat_value.is_then_cast(&stat) {
v.add(share(querier.query_eval(this, &Exact { any_of, all_of }, &stat).unwrap())) } }`.

`query_eval` is `query_stat` followed by `eval` (querier.rs:130-139). -/
def Conversion.stream (A : Addr E) (c : Conversion E Q Ent) : CStream E Q Ent where
  Item := Unit
  query e := if c.on e then some () else none
  stream this _ q p :=
    if c.applies q then
      (Prog.lift (p.isThenCast A c.stat)).bind fun
        | none => .ret p
        | some v => .ask (.stat this (.exact c.anyOf c.allOf) (E.asEntry c.stat)) fun
          | none => .fail .panic
          | some w => Prog.lift do
            let out ← (E.asEntry c.stat).sv.eval w
            let v' ← (E.asEntry c.stat).sv.add v (c.share out)
            .ok (p.write c.T v')
    else .ret p

variable [BitFlags Q] [Ord Q] {A : Addr E}

/-- All sources are maps, and one effect of this kind: `own₁` are joined before it, `own₂` after it, and `items` on
the children of the entity. -/
structure MapsAnd (J : Joined E Q Ent) (c : Conversion E Q Ent) (own₁ own₂ items : List (MapComp (Q := Q) A Ent)) :
    Prop where
  comp : J.comp.leaves = own₁.map MapComp.stream ++ c.stream A :: own₂.map MapComp.stream
  child : J.child.leaves = items.map MapComp.stream
  rel : J.rel.leaves = []
  globals : J.world.relations.getD [] = []

end BSQ
