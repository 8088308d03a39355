import Verif.Spec.MapQuery
import Verif.Spec.Unordered
/-!
# Modifiers assembled from operations

What a query adds up, as operations: those the start value was made of, and those the stored values were made of.
-/
namespace BSQ
variable {E : Env} {Q Ent : Type} [BitFlags Q] [Ord Q] [FlagSet Q] {A : Addr E}

/-- `L` lists the operations which the start value of the stat `s`, and what is stored for it under matching
qualifiers in the maps for the entity `e`, were assembled from, in one way or another. -/
def AssembledFrom (J : Joined E Q Ent) (own items : List (MapComp (Q := Q) A Ent)) (e : Ent) (q : QualifierQuery Q)
    (s : StatInst E) {V : Type} {D : StatValue V} (hD : s.Is D) (L : List (StatOp D)) : Prop :=
  ∃ (v : s.Val) (Ls : List (List (Qualifier Q × s.Val))) (t₀ : Tree D) (ts : List (Tree D)),
    J.world.startValue A s = .ok (.val s.ty v) ∧
    List.Forall₂ (MatchesAt q s) (mapPlaces J own items e) Ls ∧
    t₀.NoReset ∧ t₀.run = .ok (asVal hD v) ∧
    List.Forall₂ (fun x t => Tree.NoReset t ∧ t.run = .ok (asVal hD x.2)) Ls.flatten ts ∧
    L = t₀.leaves ++ ts.flatMap Tree.leaves

/-! ### from the calls that filled the maps -/

/-- the operations written down per qualifier for a stat -/
abbrev Journal (Q : Type) (s : StatInst E) := Qualifier Q → Option (List (StatOp s.sv))

/-- write an operation down: a base value starts anew -/
def Journal.write {V : Type} {D : StatValue V} (l : List (StatOp D)) : StatOp D → List (StatOp D)
  | .base b => [.base b]
  | o => l ++ [o]

/-- Keep a journal for the stat `s`: a base value starts anew, operations are added, removing strikes out.  Calls
about other stats leave it as it is; calls that write values of unknown make are not written down. -/
def Journal.step (s : StatInst E) (j : Journal Q s) : MapOp E Q → Journal Q s
  | .insertBase q s' b => if h : s' = s then fun k => if k = q then some [.base (h ▸ b)] else j k else j
  | .modify q s' o =>
    if h : s' = s then fun k => if k = q then some (Journal.write ((j q).getD []) (h ▸ o)) else j k else j
  | .remove q s' => if s' = s then fun k => if k = q then none else j k else j
  | .removeAll s' => if s' = s then fun _ => none else j
  | .clear => fun _ => none
  | .insert _ _ _ | .modifyWith _ _ _ | .getMut _ _ _ | .iterMut _ _ => j

/-- the journal of a history of calls on a map that was empty at first -/
def Journal.ofCalls (s : StatInst E) (h : List (MapOp E Q)) : Journal Q s := h.foldl (Journal.step s) fun _ => none

/-- the call does not write a value of `s` of unknown make -/
def MapOp.WritesOps (s : StatInst E) : MapOp E Q → Prop
  | .insert _ s' _ | .modifyWith _ s' _ | .getMut _ s' _ | .iterMut s' _ => s' ≠ s
  | _ => True

/-- `L` lists, once each, the journals of `s` under qualifiers that match the query, of the map that the calls
`calls e` filled on the entity `e` -/
structure JournalsAt (q : QualifierQuery Q) (s : StatInst E) (at_ : (Ent → Option (List (MapOp E Q))) × Ent)
    (L : List (Qualifier Q × List (StatOp s.sv))) : Prop where
  once : (L.map (·.1)).Nodup
  mem : ∀ k l, (k, l) ∈ L ↔
    ∃ h, at_.1 at_.2 = some h ∧ Journal.ofCalls s h k = some l ∧ FlagSpec.Matches k q

/-- the places where the maps for an entity are, by the calls that filled them -/
def callPlaces (J : Joined E Q Ent) (own items : List (Ent → Option (List (MapOp E Q)))) (e : Ent) :
    List ((Ent → Option (List (MapOp E Q))) × Ent) :=
  own.map (·, e) ++ items.flatMap fun c => ((J.world.children e).getD []).map (c, ·)

/-- operations read as what they are -/
def asOps {X : (V : Type) × StatValue V} {V : Type} {D : StatValue V} (h : X = ⟨V, D⟩) (l : List (StatOp X.2)) :
    List (StatOp D) := cast (congrArg (fun x : (V : Type) × StatValue V => List (StatOp x.2)) h) l

end BSQ
