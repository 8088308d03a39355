import Verif.Model.StatMap
/-!
# Reflection  (src/stat_map.rs:64-70, src/qualifier.rs:78-84, 152-166)

`#[derive(Reflect)]` of `bevy_reflect` 0.15, as far as it concerns the types of the crate: structs and enums whose
fields are leaves (flag types; `F` is the type of leaf values).  What the macro generates is taken from knowledge of
`bevy_reflect`, whose source is not part of /repo; it belongs to the trusted base.
-/
namespace BSQ

/-- What a value shows of itself through `PartialReflect::reflect_ref`: its reflected fields, by name.  Dynamic values
(`DynamicStruct`, `DynamicEnum`) consist of nothing else. -/
inductive Refl (F : Type) where
  | leaf (x : F)
  | struct (fields : List (String × F))
  | enum (variant : String) (fields : List (String × F))
  deriving DecidableEq

namespace Refl
variable {F : Type}
/-- `Struct::field` -/
def field (fs : List (String × F)) (n : String) : Option F := (fs.find? (fun f => f.1 == n)).map (·.2)
end Refl

/-- What the derive macro generates for a struct is determined by the fields without `#[reflect(ignore)]`: their names,
how each is read and written, and the struct made from them, its ignored fields being `Default::default()`. -/
structure ReflStruct (T F : Type) where
  fields : List (String × (T → F))
  write : T → String → F → T
  make : List F → Option T

namespace ReflStruct
variable {T F : Type} (D : ReflStruct T F)

/-- `PartialReflect::reflect_ref`; the result of `clone_value` (a `DynamicStruct`) shows the same -/
def show_ (x : T) : Refl F := .struct (D.fields.map fun f => (f.1, f.2 x))

/-- derived `FromReflect::from_reflect`: all reflected fields must be there; the others get their default -/
def fromReflect : Refl F → Option T
  | .struct fs => (D.fields.mapM fun f => Refl.field fs f.1) >>= D.make
  | _ => none

/-- derived `PartialReflect::try_apply`: fields of the same name are overwritten, others left alone; `none` is an error
(a panic in `apply`) for values that are no struct -/
def apply (x : T) : Refl F → Option T
  | .struct fs => some (fs.foldl (fun x f => if f.1 ∈ D.fields.map (·.1) then D.write x f.1 f.2 else x) x)
  | _ => none

/-- `struct_partial_eq`, the default for `reflect_partial_eq` of a struct -/
def partialEq [DecidableEq F] (x : T) : Refl F → Bool
  | .struct fs => fs.length == D.fields.length &&
      fs.all fun f => Refl.field (D.fields.map fun g => (g.1, g.2 x)) f.1 == some f.2
  | _ => false

/-- `from_reflect_with_fallback` of `bevy_ecs`, for a registered type: `from_reflect`, which the derive macro
registers; otherwise it panics (`StatMap` registers no `ReflectDefault`) -/
def build (r : Refl F) : Res T :=
  match D.fromReflect r with
  | some x => .ok x
  | none => .error .panic

variable {Ent : Type} [DecidableEq Ent]

/-- `ReflectComponent::insert` -/
def insert (w : Ent → Option T) (e : Ent) (r : Refl F) : Res (Ent → Option T) := do
  let x ← D.build r
  .ok (fun e' => if e' = e then some x else w e')

/-- `ReflectComponent::apply_or_insert`, used to spawn a `DynamicScene` -/
def applyOrInsert (w : Ent → Option T) (e : Ent) (r : Refl F) : Res (Ent → Option T) :=
  match w e with
  | none => D.insert w e r
  | some x =>
    match D.apply x r with
    | none => .error .panic
    | some x' => .ok (fun e' => if e' = e then some x' else w e')

/-- `ReflectComponent::copy`, used to spawn a `Scene` (some versions rebuild the component from its reflection and use
`applyOrInsert`): the component of an entity of another world, which must have one -/
def copy (src : Ent → Option T) (w : Ent → Option T) (e e' : Ent) : Res (Ent → Option T) :=
  match src e with
  | none => .error .panic
  | some x => D.insert w e' (D.show_ x)

end ReflStruct

/-- `derive(Reflect)` of `StatMap` (stat_map.rs:64-70): the only field, `inner`, is ignored -/
def StatMap.reflect (E : Env) (Q F : Type) : ReflStruct (StatMap E Q) F where
  fields := []
  write m _ _ := m
  make l := match l with
    | [] => some .new
    | _ => none

/-- `derive(Reflect)` of `Qualifier` (qualifier.rs:78-84) -/
def Qualifier.reflect (Q : Type) : ReflStruct (Qualifier Q) Q where
  fields := [("any_of", Qualifier.anyOf), ("all_of", Qualifier.allOf)]
  write q n x := if n = "any_of" then { q with anyOf := x } else { q with allOf := x }
  make l := match l with
    | [a, b] => some ⟨a, b⟩
    | _ => Option.none

namespace QualifierQuery
variable {Q : Type}
/-- `derive(Reflect)` of `QualifierQuery` (qualifier.rs:152-166), an enum: what a value shows of itself.  The field of
a tuple variant is called `0`. -/
def show_ : QualifierQuery Q → Refl Q
  | .aggregate x => .enum "Aggregate" [("0", x)]
  | .exact a b => .enum "Exact" [("any_of", a), ("all_of", b)]

/-- derived `from_reflect` of the enum -/
def fromReflect : Refl Q → Option (QualifierQuery Q)
  | .enum v fs =>
    if v = "Aggregate" then (Refl.field fs "0").map .aggregate
    else if v = "Exact" then do
      let a ← Refl.field fs "any_of"
      let b ← Refl.field fs "all_of"
      some (.exact a b)
    else Option.none
  | _ => Option.none

/-- derived `try_apply` of the enum: fields of the same variant are overwritten, another variant is built anew -/
def apply (x : QualifierQuery Q) : Refl Q → Option (QualifierQuery Q)
  | .enum v fs =>
    match x with
    | .aggregate a => if v = "Aggregate" then some (.aggregate ((Refl.field fs "0").getD a)) else fromReflect (.enum v fs)
    | .exact a b =>
      if v = "Exact" then some (.exact ((Refl.field fs "any_of").getD a) ((Refl.field fs "all_of").getD b))
      else fromReflect (.enum v fs)
  | _ => Option.none
end QualifierQuery

end BSQ
