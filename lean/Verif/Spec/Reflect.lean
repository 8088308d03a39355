import Verif.Model.Reflect
/-!
# What copies and comparisons through reflection should do
-/
namespace BSQ

/-- Reflection shows all there is of a type: rebuilding a value from what it shows gives it back, applying what
another value shows turns a value into that one, and comparing by what is shown is comparing. -/
structure ReflectsAll {T R : Type} (shown : T → R) (rebuild : R → Option T) (apply : T → R → Option T)
    (same : T → R → Bool) : Prop where
  rebuild : ∀ x, rebuild (shown x) = some x
  apply : ∀ x y, apply x (shown y) = some y
  same : ∀ x y, same x (shown y) = true ↔ x = y

end BSQ
