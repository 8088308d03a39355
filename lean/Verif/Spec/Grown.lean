import Verif.Spec.MapLocal
import Verif.Spec.Monotone
/-!
# Maps with more bonuses in them
-/
namespace BSQ
variable {E : Env} {Q Ent : Type} [BitFlags Q] [Ord Q] [FlagSet Q] {A : Addr E}

/-- Putting further operations that satisfy `B` into an assembly of operations that satisfy `ok`, at any places, never
lowers (in the sense of `le`) what it evaluates to. -/
def MonoAlong {V : Type} (D : StatValue V) (B ok : StatOp D → Prop) (le : D.Out → D.Out → Prop) : Prop :=
  ∀ t t' : Tree D, Tree.Extra B t t' → t'.NoReset → (∀ o ∈ t'.leaves, ok o) →
    ∀ v v', t.run = .ok v → t'.run = .ok v' → ∀ out out', D.eval v = .ok out → D.eval v' = .ok out' → le out out'

/-- `w'` was assembled from operations that satisfy `ok`: from those `w` was assembled from in the same way, if there
is a `w`, and further ones that satisfy `B`. -/
def Grown {V : Type} {D : StatValue V} (B ok : StatOp D → Prop) (w : Option V) (w' : V) : Prop :=
  ∃ t t' : Tree D, Tree.Extra B t t' ∧ t'.NoReset ∧ (∀ o ∈ t'.leaves, ok o) ∧ t'.run = .ok w' ∧
    match w with
    | some w => t.run = .ok w
    | none => t = .dflt

/-- what is found at the second place, under qualifiers that match the query, has grown from what is found at the first;
`none`: there was no such place -/
def GrownAt (q : QualifierQuery Q) (s : StatInst E) {V : Type} {D : StatValue V} (hD : s.Is D) (B ok : StatOp D → Prop)
    (x : Option (MapComp (Q := Q) A Ent × Ent)) (x' : MapComp (Q := Q) A Ent × Ent) : Prop :=
  ∀ k, FlagSpec.Matches k q →
    match x.bind fun x => foundAt x ⟨s, k⟩, foundAt x' ⟨s, k⟩ with
    | none, none => True
    | some _, none => False
    | w, some w' => Grown B ok (w.map (asVal hD)) (asVal hD w')

/-- the second list is the first, each element with a related one in its place, and further ones put in anywhere -/
inductive Threads {α β : Type} (R : Option α → β → Prop) : List α → List β → Prop
  | nil : Threads R [] []
  | keep {a : α} {b : β} {l : List α} {l' : List β} : R (some a) b → Threads R l l' → Threads R (a :: l) (b :: l')
  | put {b : β} {l : List α} {l' : List β} : R none b → Threads R l l' → Threads R l (b :: l')

end BSQ
