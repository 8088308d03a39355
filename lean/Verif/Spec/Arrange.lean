import Verif.Spec.Assembled
import Verif.Spec.Undo
/-!
# Where modifiers are kept
-/
namespace BSQ
variable {E : Env} {Q Ent : Type}

section
variable [BitFlags Q] [Ord Q] [FlagSet Q] {A : Addr E}

/-- The maps for the entity `e` of the one program and those for `e'` of the other hold the same modifiers of the stat
`s` that match the query: as many times each, whichever map holds them. -/
def SameModifiers (J : Joined E Q Ent) (own items : List (MapComp (Q := Q) A Ent)) (e : Ent)
    (J' : Joined E Q Ent) (own' items' : List (MapComp (Q := Q) A Ent)) (e' : Ent)
    (q : QualifierQuery Q) (s : StatInst E) : Prop :=
  ∃ Ls Ls' : List (List (Qualifier Q × s.Val)),
    List.Forall₂ (MatchesAt q s) (mapPlaces J own items e) Ls ∧
    List.Forall₂ (MatchesAt q s) (mapPlaces J' own' items' e') Ls' ∧
    Ls.flatten.Perm Ls'.flatten
end

/-- the calls that concern the part `i` of a map whose keys are kept in the parts given by `route`: those about its
keys, and those about whole stats or everything -/
def callsTo (route : Key E Q → Nat) (i : Nat) (h : List (MapOp E Q)) : List (MapOp E Q) :=
  h.filter fun o => match o.key with
    | some k => route k == i
    | none => true

/-- instead of making the calls on one map, they were made on several, each for a part of the keys -/
def SplitInto (h : List (MapOp E Q)) (parts : List (List (MapOp E Q))) : Prop :=
  ∃ (n : Nat) (route : Key E Q → Nat), (∀ o ∈ h, ∀ k, o.key = some k → route k < n) ∧
    parts = (List.range n).map (callsTo route · h)

/-- the histories of the maps found for an entity -/
def callsFound (J : Joined E Q Ent) (own items : List (Ent → Option (List (MapOp E Q)))) (e : Ent) :
    List (List (MapOp E Q)) := (callPlaces J own items e).filterMap fun p => p.1 p.2

end BSQ
