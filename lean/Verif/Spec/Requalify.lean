import Verif.Spec.Arrange
import Verif.Spec.Interchange
/-!
# The same modifiers under other qualifiers
-/
namespace BSQ
variable {E : Env} {Q Ent : Type} [BitFlags Q] [Ord Q] [FlagSet Q] {A : Addr E}

/-- `L` lists, once each, what is stored for the stat `s` at a place -/
structure HoldsAt (s : StatInst E) (at_ : MapComp (Q := Q) A Ent × Ent) (L : List (Qualifier Q × s.Val)) : Prop where
  once : (L.map (·.1)).Nodup
  mem : ∀ k v, (k, v) ∈ L ↔ (at_.1.map at_.2).isSome ∧ at_.1.stored at_.2 ⟨s, k⟩ = some v

/-- What the maps for the entity `e` of the one program hold of the stat `s` can be paired off with what those for `e'`
of the other hold: the same values, under qualifiers related by `R`, whichever maps hold them. -/
def PairedOff (R : Qualifier Q → Qualifier Q → Prop)
    (J : Joined E Q Ent) (own items : List (MapComp (Q := Q) A Ent)) (e : Ent)
    (J' : Joined E Q Ent) (own' items' : List (MapComp (Q := Q) A Ent)) (e' : Ent) (s : StatInst E) : Prop :=
  ∃ (Ls Ls' : List (List (Qualifier Q × s.Val))) (P : List (Qualifier Q × s.Val)),
    List.Forall₂ (HoldsAt s) (mapPlaces J own items e) Ls ∧
    List.Forall₂ (HoldsAt s) (mapPlaces J' own' items' e') Ls' ∧
    Ls.flatten.Perm P ∧ List.Forall₂ (fun a b => R a.1 b.1 ∧ a.2 = b.2) P Ls'.flatten

end BSQ
