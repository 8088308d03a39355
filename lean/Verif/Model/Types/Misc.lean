import Verif.Model.StatValue
import Verif.Model.Qualifier
/-!
# `StatFlags`, `StatExists`, `StatOnce`, `Prioritized`
(src/types/flags.rs, src/types/singleton.rs, src/types/prioritized.rs)
-/
namespace BSQ

/-- The operations `trait Flags` needs: `BitOr`, `Default` and the blanket `exclude` built from
`BitAnd`/`BitXor` (num_traits.rs:34-73). -/
class BitXorFlags (T : Type) extends BitFlags T where
  bxor : T → T → T

/-- `Flags::exclude` (num_traits.rs:70-72) -/
def exclude {T : Type} [BitXorFlags T] (self other : T) : T :=
  BitXorFlags.bxor self (BitFlags.band self other)

instance {w : Nat} : BitXorFlags (BitVec w) where
  bxor := (· ^^^ ·)
instance : BitXorFlags Bool where
  bxor := Bool.xor

/-- `StatFlags<T>` (flags.rs:12-15) -/
structure StatFlags (T : Type) where
  not : T
  or : T
  deriving DecidableEq, Repr

/-- `#[derive(Default)]`/`impl StatValue for StatFlags<T>` (flags.rs:10, 17-50) -/
abbrev statFlags (T : Type) [BitXorFlags T] : StatValue (StatFlags T) where
  Out := T
  AddT := Empty
  MulT := Empty
  BitT := T
  BoundsT := Empty
  BaseT := T
  default := { not := BitFlags.dflt, or := BitFlags.dflt }
  join a b := .ok { or := BitFlags.bor a.or b.or, not := BitFlags.bor a.not b.not }
  eval a := .ok (exclude a.or a.not)
  or a o := .ok { a with or := BitFlags.bor a.or o }
  not a o := .ok { a with not := BitFlags.bor a.not o }
  fromBase b := { not := BitFlags.dflt, or := b }

/-- `StatExists` (singleton.rs:11) -/
structure StatExists where
  val : Bool
  deriving DecidableEq, Repr

/-- `impl StatValue for StatExists` (singleton.rs:13-38); `not` is the no-op default. -/
abbrev statExists : StatValue StatExists where
  Out := Bool
  AddT := Empty
  MulT := Empty
  BitT := Bool
  BoundsT := Empty
  BaseT := Bool
  default := ⟨false⟩
  join a b := .ok ⟨a.val || b.val⟩
  eval a := .ok a.val
  or a o := .ok ⟨a.val || o⟩
  fromBase b := ⟨b⟩

/-- `StatOnce<T>` (singleton.rs:43-48) -/
inductive StatOnce (T : Type) where
  | notFound
  | found (x : T)
  | foundMultiple
  deriving DecidableEq, Repr

namespace StatOnce
variable {T : Type}
/-- `StatOnce::or` (singleton.rs:131-139) and its alias `set` (singleton.rs:90-92) -/
def or (self : StatOnce T) (item : T) : StatOnce T :=
  match self with
  | .notFound => .found item
  | .found _ => .foundMultiple
  | .foundMultiple => .foundMultiple

def set (self : StatOnce T) (item : T) : StatOnce T := self.or item

/-- `StatOnce::try_set` (singleton.rs:95-103): new value and returned flag -/
def trySet (self : StatOnce T) (item : T) : StatOnce T × Bool :=
  match self with
  | .notFound => (.found item, true)
  | s => (s, false)

/-- `StatOnce::into_option` / `as_ref` (singleton.rs:75-87) -/
def intoOption : StatOnce T → Option T
  | .found r => some r
  | _ => none

/-- `StatOnce::unwrap` / `expect` (singleton.rs:51-53, 63-65) -/
def unwrap (s : StatOnce T) : Res T :=
  match s.intoOption with
  | some x => .ok x
  | none => .error .panic

/-- `StatOnce::unwrap_or` / `unwrap_or_else` (singleton.rs:55-61) -/
def unwrapOr (s : StatOnce T) (d : T) : T := s.intoOption.getD d

/-- `StatOnce::is_some` (singleton.rs:67-69) -/
def isSome : StatOnce T → Bool
  | .found _ => true
  | _ => false

/-- `StatOnce::is_none` (singleton.rs:71-73) -/
def isNone (s : StatOnce T) : Bool := !s.isSome

/-- `StatOnce::join` (singleton.rs:110-119) -/
def join (self other : StatOnce T) : StatOnce T :=
  match self, other with
  | s, .notFound => s
  | .notFound, o => o
  | .foundMultiple, _ => .foundMultiple
  | .found _, _ => .foundMultiple
end StatOnce

/-- `impl StatValue for StatOnce<T>` (singleton.rs:106-144); `not` is the no-op default. -/
abbrev statOnce (T : Type) : StatValue (StatOnce T) where
  Out := StatOnce T
  AddT := Empty
  MulT := Empty
  BitT := T
  BoundsT := Empty
  BaseT := T
  default := .notFound
  join a b := .ok (a.join b)
  eval a := .ok a
  or a o := .ok (a.or o)
  fromBase b := .found b

/-- `Prioritized<T, LAST>` (prioritized.rs:12-15) -/
structure Prioritized (T : Type) where
  value : T
  priority : Int
  deriving DecidableEq, Repr

/-- `impl StatValue for Prioritized<T, R>` (prioritized.rs:17-50).  As in the code, `join` replaces
`value` but never `priority`; `or`/`not` are the no-op defaults.  `d` is `T::default()`. -/
abbrev prioritized (T : Type) (d : T) (last : Bool) : StatValue (Prioritized T) where
  Out := T
  AddT := Empty
  MulT := Empty
  BitT := Prioritized T
  BoundsT := Empty
  BaseT := Prioritized T
  default := { value := d, priority := 0 }
  join a b :=
    .ok (if last then
        if a.priority ≤ b.priority then { a with value := b.value } else a
      else
        if a.priority < b.priority then { a with value := b.value } else a)
  eval a := .ok a.value
  fromBase b := b

end BSQ
