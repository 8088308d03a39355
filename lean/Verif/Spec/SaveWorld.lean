import Verif.Spec.MapLocal
import Verif.Model.Serde
/-!
# A world of `StatMap`s, saved and loaded
-/
namespace BSQ
variable {E : Env} {Q Ent Ent' : Type} [BitFlags Q] [Ord Q]

/-- the `ComponentStream` of a component that holds a map, whatever the map has been through -/
def mapStream (A : Addr E) (f : Ent → Option (StatMap E Q)) : CStream E Q Ent where
  Item := StatMap E Q
  query := f
  stream this m q := m.asStream A this q

/-- The component `f'` of the loading process was loaded from what the component `f` of the saving process was saved
as; `ren` tells which entity became which.  Entities with other maps may have been added since. -/
structure LoadedFrom (A' : Addr E) (X : Serde E Q) (sc : DeScope E) (ren : Ent → Ent')
    (f : Ent → Option (StatMap E Q)) (f' : Ent' → Option (StatMap E Q)) : Prop where
  absent : ∀ e, f e = none → f' (ren e) = none
  present : ∀ e m, f e = some m → ∃ d m', X.serMap m = .ok d ∧ X.deMap sc d = .ok (some m') ∧ f' (ren e) = some m'
  others : ∀ e' m', f' e' = some m' → (∃ e, e' = ren e) ∨ ∃ h, StatMap.run A' h = .ok m'

end BSQ
