import Verif.Model.Derive
/-!
# Fieldless enums as the Rust compiler sees them
-/
namespace BSQ.Derive

/-- discriminants by the rules of the language: the first is 0, an implicit one is its predecessor plus one -/
def rustDiscsFrom : Nat → List Variant → List Nat
  | _, [] => []
  | next, v :: vs =>
    match v.disc with
    | .lit n => n :: rustDiscsFrom (n + 1) vs
    | _ => next :: rustDiscsFrom (next + 1) vs

/-- The compiler accepts the enum and the macro does not reject it: fieldless, discriminants are literals or
left out, all discriminants and all identifiers are different and representable. -/
structure Accepted (vs : List Variant) : Prop where
  unit : ∀ v ∈ vs, v.isUnit = true
  literal : ∀ v ∈ vs, v.disc ≠ .other
  discs : (rustDiscsFrom 0 vs).Nodup
  range : ∀ n ∈ rustDiscsFrom 0 vs, n < 2 ^ 64
  idents : (vs.map (·.ident)).Nodup

/-- the number of variants before the first explicit discriminant -/
def leading (vs : List Variant) : Nat := (vs.takeWhile (fun v => v.disc == .none)).length

end BSQ.Derive
