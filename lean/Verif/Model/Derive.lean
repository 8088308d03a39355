import Verif.Model.Basic
/-!
# `#[derive(Stat)]`  (derive/src/lib.rs)
-/
namespace BSQ
namespace Derive

/-- the discriminant written on an enum variant (derive/src/lib.rs:123-136) -/
inductive Disc where
  /-- none -/
  | none
  /-- `= n`, an integer literal -/
  | lit (n : Nat)
  /-- any other expression, e.g. `= -1` or `= 1 + 1` -/
  | other
  deriving DecidableEq, Repr

/-- an enum variant as the macro sees it -/
structure Variant where
  ident : String
  disc : Disc := .none
  /-- carries `#[default]` -/
  isDefault : Bool := false
  /-- has no fields -/
  isUnit : Bool := true
  deriving DecidableEq, Repr

/-- The running computation of `indices` (derive/src/lib.rs:119-139); `none` is a compile error.
Simplification: `last += 1` on `u64` does not wrap around, as the enum would need a discriminant of
`u64::MAX` followed by a variant without one, which the compiler rejects. -/
def indicesFrom : Nat → List Variant → Option (List Nat)
  | _, [] => some []
  | last, v :: vs =>
    match v.disc with
    | .none => (indicesFrom (last + 1) vs).map ((last + 1) :: ·)
    | .lit n => if n < 2 ^ 64 then (indicesFrom n vs).map (n :: ·) else none
    | .other => none

/-- the variant returned for unknown indices: the last one marked `#[default]` (derive/src/lib.rs:101-114);
a variant is given by its position -/
def defaultFrom : Nat → List Variant → Option Nat → Option Nat
  | _, [], d => d
  | i, v :: vs, d => defaultFrom (i + 1) vs (if v.isDefault then some i else d)

/-- the code generated for an enum (derive/src/lib.rs:141-171) -/
structure Impl where
  idents : List String
  indices : List Nat
  default : Option Nat
  deriving DecidableEq, Repr

/-- the macro on an enum (derive/src/lib.rs:100-174); `none` is a compile error (`abort!`) -/
def enum (vs : List Variant) : Option Impl :=
  if vs.all (·.isUnit) then
    (indicesFrom 0 vs).map (fun is => ⟨vs.map (·.ident), is, defaultFrom 0 vs none⟩)
  else none

/-- generated `name` (derive/src/lib.rs:145-149) of the variant at a position -/
def Impl.name (d : Impl) (i : Nat) : Option String := d.idents[i]?
/-- generated `as_index` (derive/src/lib.rs:155-159) -/
def Impl.asIndex (d : Impl) (i : Nat) : Option Nat := d.indices[i]?
/-- generated `from_index` (derive/src/lib.rs:161-166): the first arm with that index, then the default or a
panic (derive/src/lib.rs:101-103) -/
def Impl.fromIndex (d : Impl) (x : Nat) : Res Nat :=
  match d.indices.findIdx? (· == x) with
  | some i => .ok i
  | none =>
    match d.default with
    | some i => .ok i
    | none => .error .panic
/-- generated `values` (derive/src/lib.rs:168-170) -/
def Impl.values (d : Impl) : List Nat := List.range d.idents.length

/-- the macro on a unit struct (derive/src/lib.rs:69-99): one value, index 0, any index converts to it -/
def unitStruct (ident : String) : Impl := ⟨[ident], [0], some 0⟩

end Derive
end BSQ
