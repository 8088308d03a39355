import Verif.Spec.SaveWorld
/-!
# A world of `StatMap`s, saved, loaded and repaired
-/
namespace BSQ
variable {E : Env} {Q Ent Ent' : Type} [BitFlags Q] [Ord Q]

/-- The component `f'` of the loading process was loaded from what the component `f` of the saving process was saved
as, and each loaded map was then extended by nothing, at the stat type `T`; `ren` tells which entity became which.
Entities with other maps may have been added since. -/
structure RepairedFrom (A' : Addr E) (X : Serde E Q) (sc : DeScope E) (T : E.S) (ren : Ent → Ent')
    (f : Ent → Option (StatMap E Q)) (f' : Ent' → Option (StatMap E Q)) : Prop where
  absent : ∀ e, f e = none → f' (ren e) = none
  present : ∀ e m, f e = some m → ∃ d m₁ m₂, X.serMap m = .ok d ∧ X.deMap sc d = .ok (some m₁) ∧
    StatMap.extend A' m₁ T [] = .ok m₂ ∧ f' (ren e) = some m₂
  others : ∀ e' m', f' e' = some m' → (∃ e, e' = ren e) ∨ ∃ h, StatMap.run A' h = .ok m'

end BSQ
