import Verif.Spec.Assembled
/-!
# Queries made up of other queries
-/
namespace BSQ
variable {E : Env} {Q Ent : Type} [BitFlags Q] [Ord Q] [FlagSet Q] {A : Addr E}

/-- Each modifier of the stat `s` kept at the places matches the query `q` iff it matches one of the queries `qs`, and
it matches no two of those. -/
def DividesInto (places : List (MapComp (Q := Q) A Ent × Ent)) (s : StatInst E) (q : QualifierQuery Q)
    (qs : List (QualifierQuery Q)) : Prop :=
  ∀ p ∈ places, ∀ k v, p.1.stored p.2 ⟨s, k⟩ = some v →
    (FlagSpec.Matches k q ↔ ∃ r ∈ qs, FlagSpec.Matches k r) ∧
    qs.Pairwise fun r r' => ¬ (FlagSpec.Matches k r ∧ FlagSpec.Matches k r')

/-- `L` lists the operations that the modifiers of the stat `s` kept at the places and matching the query were
assembled from, in one way or another. -/
def StoredFrom (places : List (MapComp (Q := Q) A Ent × Ent)) (q : QualifierQuery Q) (s : StatInst E) {V : Type}
    {D : StatValue V} (hD : s.Is D) (L : List (StatOp D)) : Prop :=
  ∃ (Ls : List (List (Qualifier Q × s.Val))) (ts : List (Tree D)),
    List.Forall₂ (MatchesAt q s) places Ls ∧
    List.Forall₂ (fun x t => Tree.NoReset t ∧ t.run = .ok (asVal hD x.2)) Ls.flatten ts ∧
    L = ts.flatMap Tree.leaves

/-- `ys` lists, once each, the sets of flags within `x` -/
structure Subsets (x : Q) (ys : List Q) : Prop where
  once : ys.Nodup
  mem : ∀ y, y ∈ ys ↔ FlagSpec.Within y x

end BSQ
