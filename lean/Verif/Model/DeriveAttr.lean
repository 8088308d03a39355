import Verif.Model.Derive
/-!
# The `#[stat(...)]` attribute of the derive macro  (derive/src/lib.rs:38-68)
-/
namespace BSQ
namespace Derive

/-- tokens inside `#[stat(...)]`, as far as the macro distinguishes them -/
inductive Tok where
  /-- an identifier or a path, e.g. `value` -/
  | path (p : String)
  /-- `=` -/
  | eq
  /-- `,` -/
  | comma
  /-- a string literal -/
  | str (s : String)
  /-- anything else -/
  | other
  deriving DecidableEq, Repr

/-- an attribute of the item: its path, and the tokens in the parentheses behind it, if it has any.
`attr.parse_nested_meta` fails on an attribute without them. -/
structure Attr where
  path : String
  args : Option (List Tok)

variable {Ty : Type} (ty : String → Option Ty)

mutual
/-- `attr.parse_nested_meta` with the closure of derive/src/lib.rs:49-61.  `ty` parses the contents of a string as a
type; `v` is the variable `value` (derive/src/lib.rs:43).  `none` is a compile error (`abort!`).  The result of
`parse_nested_meta` is dropped (`let _ =`), so any other failure leaves `value` as it is.

The loop is that of the `syn` crate: a path, the closure, then the end or a comma. -/
def nested (v : Option Ty) : List Tok → Option (Option Ty)
  | .path p :: rest =>
    -- derive/src/lib.rs:50-52
    if p ≠ "value" then afterItem v rest
    else
      match rest with
      | .eq :: .str s :: rest =>
        -- derive/src/lib.rs:56-59
        match ty s with
        | none => none
        | some t => afterItem (some t) rest
      -- derive/src/lib.rs:53-55
      | .eq :: _ => none
      -- `parse.value()?`
      | _ => some v
  | _ => some v
termination_by l => l.length
/-- the comma after an item, and the next item -/
def afterItem (v : Option Ty) : List Tok → Option (Option Ty)
  | .comma :: rest => nested v rest
  | _ => some v
termination_by l => l.length
end

/-- the loop over the attributes (derive/src/lib.rs:45-62) -/
def attrsFrom (v : Option Ty) : List Attr → Option (Option Ty)
  | [] => some v
  | a :: l =>
    if a.path ≠ "stat" then attrsFrom v l
    else
      match a.args with
      | none => attrsFrom v l
      | some toks =>
        match nested ty v toks with
        | none => none
        | some v => attrsFrom v l

/-- the item below the attributes (derive/src/lib.rs:68, 69, 100, 175) -/
inductive Item where
  /-- a struct, which may be a unit struct -/
  | struct (ident : String) (isUnit : Bool)
  | enum (vs : List Variant)
  | union

/-- the whole macro (derive/src/lib.rs:38-179): the generated functions and `type Value`; `none` is a compile
error -/
def stat (attrs : List Attr) (item : Item) : Option (Impl × Ty) :=
  match attrsFrom ty none attrs with
  | none => none
  -- derive/src/lib.rs:64-66
  | some none => none
  | some (some t) =>
    match item with
    | .struct ident isUnit => if isUnit then some (unitStruct ident, t) else none
    | .enum vs => (enum vs).map (·, t)
    | .union => none

end Derive
end BSQ
