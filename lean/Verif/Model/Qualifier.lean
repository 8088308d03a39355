/-!
# Qualifiers  (src/qualifier.rs)
-/
namespace BSQ

/-- The operators required by the blanket `QualifierFlag` impl:
`BitOr + BitAnd + Default + Eq` (qualifier.rs:27-35).  `Ord` is added where it is used (StatMap). -/
class BitFlags (Q : Type) where
  /-- `self | other` -/
  bor : Q → Q → Q
  /-- `self & other` -/
  band : Q → Q → Q
  /-- `Default::default()` -/
  dflt : Q
  /-- `==` -/
  deq : DecidableEq Q

/-- trait `QualifierFlag` (qualifier.rs:16-25).  `Hash`/`Ord` are handled where used. -/
class QualifierFlag (Q : Type) where
  /-- `BitOr` supertrait -/
  bor : Q → Q → Q
  contains : Q → Q → Bool
  intersects : Q → Q → Bool
  setEquals : Q → Q → Bool
  none : Q
  isNone : Q → Bool
  /-- `Eq`, from the `Ord` supertrait -/
  deq : DecidableEq Q

namespace QualifierFlag

/-- provided method `is_none_or_intersects` (qualifier.rs:19-21) -/
def isNoneOrIntersects {Q : Type} [QualifierFlag Q] (self other : Q) : Bool :=
  isNone self || intersects self other

instance (priority := low) {Q : Type} [QualifierFlag Q] : DecidableEq Q := QualifierFlag.deq

end QualifierFlag

/-- the blanket impl (qualifier.rs:27-56) -/
instance blanketQualifierFlag {Q : Type} [BitFlags Q] : QualifierFlag Q where
  bor := BitFlags.bor
  -- (*self & *other) == *other      (qualifier.rs:37-39)
  contains self other := (BitFlags.deq (BitFlags.band self other) other).decide
  -- !(*self & *other).is_none()     (qualifier.rs:45-47)
  intersects self other := !(BitFlags.deq (BitFlags.band self other) BitFlags.dflt).decide
  -- self == other                   (qualifier.rs:41-43)
  setEquals self other := (BitFlags.deq self other).decide
  -- Self::default()                 (qualifier.rs:49-51)
  none := BitFlags.dflt
  -- self == &Self::default()        (qualifier.rs:53-55)
  isNone self := (BitFlags.deq self BitFlags.dflt).decide
  deq := BitFlags.deq

/-- integers and `bitflags` structs of any width, signed or not: bitwise operators on `w` bits. -/
instance {w : Nat} : BitFlags (BitVec w) where
  bor := (· ||| ·)
  band := (· &&& ·)
  dflt := 0#w
  deq := inferInstance

/-- `bool` as a flag type (used by tests/distance.rs and tests/serde.rs). -/
instance : BitFlags Bool where
  bor := (· || ·)
  band := (· && ·)
  dflt := false
  deq := inferInstance

/-- struct `Qualifier` (qualifier.rs:78-84) -/
structure Qualifier (Q : Type) where
  anyOf : Q
  allOf : Q
  deriving DecidableEq, Repr

/-- enum `QualifierQuery` (qualifier.rs:152-166) -/
inductive QualifierQuery (Q : Type) where
  | aggregate (someOf : Q)
  | exact (anyOf allOf : Q)
  deriving DecidableEq, Repr

section
variable {Q : Type} [QualifierFlag Q]
open QualifierFlag

namespace Qualifier

/-- `Qualifier::none` (qualifier.rs:96-101), also `Default` (qualifier.rs:86-93) -/
def none : Qualifier Q := ⟨QualifierFlag.none, QualifierFlag.none⟩

/-- `Qualifier::is_none` (qualifier.rs:103-105) -/
def isNone (self : Qualifier Q) : Bool :=
  QualifierFlag.isNone self.anyOf && QualifierFlag.isNone self.allOf

/-- `Qualifier::any_of` (qualifier.rs:107-112) -/
def ofAny (q : Q) : Qualifier Q := ⟨q, QualifierFlag.none⟩

/-- `Qualifier::all_of` (qualifier.rs:114-119) -/
def ofAll (q : Q) : Qualifier Q := ⟨QualifierFlag.none, q⟩

/-- `Qualifier::and_any_of` (qualifier.rs:121-126) -/
def andAnyOf (self : Qualifier Q) (q : Q) : Qualifier Q := ⟨bor self.anyOf q, self.allOf⟩

/-- `Qualifier::and_all_of` (qualifier.rs:128-133) -/
def andAllOf (self : Qualifier Q) (q : Q) : Qualifier Q := ⟨self.anyOf, bor self.allOf q⟩

/-- `Qualifier::qualifies_as` (qualifier.rs:140-149) -/
def qualifiesAs (self : Qualifier Q) (queried : QualifierQuery Q) : Bool :=
  match queried with
  | .aggregate someOf => contains someOf self.allOf && isNoneOrIntersects self.anyOf someOf
  | .exact anyOf allOf => contains self.anyOf anyOf && decide (self.allOf = allOf)

end Qualifier

namespace QualifierQuery

/-- `QualifierQuery::none` (qualifier.rs:184-188), also `Default` (qualifier.rs:178-182) -/
def none : QualifierQuery Q := .aggregate QualifierFlag.none

/-- `QualifierQuery::qualifies_none` (qualifier.rs:169-171) -/
def qualifiesNone (self : QualifierQuery Q) : Bool := Qualifier.none.qualifiesAs self

/-- `QualifierQuery::qualify` (qualifier.rs:173-175) -/
def qualify (self : QualifierQuery Q) (q : Qualifier Q) : Bool := q.qualifiesAs self

end QualifierQuery
end

end BSQ
