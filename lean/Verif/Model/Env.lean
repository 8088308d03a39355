import Verif.Model.StatValue
/-!
# Type erasure: `Buffer`, `StatVTable`, `StatInst`, `StatValuePair`  (src/buffer.rs, src/stat.rs)

An `Env` is the collection of value types and stat types of a program.  A `Buffer` remembers the type its
bytes were written at, so that reading it at another type is visible as `Err.ub`.
-/
namespace BSQ

/-- size and alignment of a Rust type, in bytes -/
structure Layout where
  size : Nat
  align : Nat
  deriving DecidableEq, Repr

/-- `validate::<T>()` (buffer.rs:7-23) -/
def validate (l : Layout) : Res Unit :=
  if l.align = 1 ∨ l.align = 2 ∨ l.align = 4 ∨ l.align = 8 then
    if 24 < l.size then .error .panic else .ok ()
  else .error .panic

/-- The value types (`U`, implementors of `StatValue`) and stat types (`S`, implementors of `Stat`) of a
program, with what the crate asks of them.

Simplifications: a stat type has one static vtable, as the documentation of `Stat::vtable` asks
(stat.rs:173-189), so a vtable reference is the stat type it was built for (`StatVTable::of::<T>()` /
`no_serialize::<T>()` can only be used for `T`, stat.rs:36-97).  `u64` indices are natural numbers; the
crate only compares and copies them. -/
structure Env where
  /-- names of the value types -/
  U : Type
  [decU : DecidableEq U]
  /-- values of each value type -/
  El : U → Type
  /-- `impl StatValue` of each value type -/
  sv : (u : U) → StatValue (El u)
  /-- layout of the value type -/
  layout : U → Layout
  /-- layout of `StatOperation<T>` for value type `T` -/
  opLayout : U → Layout
  /-- names of the stat types -/
  S : Type
  [decS : DecidableEq S]
  /-- `Stat::Value` (stat.rs:168) -/
  valTy : S → U
  /-- layout of the stat type itself -/
  statLayout : S → Layout
  /-- values of each stat type -/
  Sel : S → Type
  /-- `Stat::as_index` (stat.rs:192) -/
  asIndex : {s : S} → Sel s → Nat
  /-- `Stat::from_index`, may panic (stat.rs:197) -/
  fromIndex : (s : S) → Nat → Res (Sel s)
  /-- `Stat::name` (stat.rs:171) -/
  statName : {s : S} → Sel s → String
  /-- `Stat::values` (stat.rs:200) -/
  values : (s : S) → List (Sel s)

attribute [instance] Env.decU Env.decS

variable {E : Env}

/-- `StatInst` (stat.rs:117-121) -/
structure StatInst (E : Env) where
  vt : E.S
  index : Nat
  deriving DecidableEq

/-- the value type of a stat, `S::Value` -/
abbrev StatInst.ty (s : StatInst E) : E.U := E.valTy s.vt
/-- values of a stat -/
abbrev StatInst.Val (s : StatInst E) : Type := E.El s.ty
/-- the `StatValue` implementation of a stat's value type -/
abbrev StatInst.sv (s : StatInst E) : StatValue s.Val := E.sv s.ty

/-- `StatExt::as_entry` (stat.rs:214-219) -/
def Env.asEntry (E : Env) {s : E.S} (x : E.Sel s) : StatInst E := ⟨s, E.asIndex x⟩

/-- `StatInst::name` (stat.rs:124-126) through `StatExt::index_to_name` (stat.rs:210-212) -/
def StatInst.name (s : StatInst E) : Res String := do
  let x ← E.fromIndex s.vt s.index
  .ok (E.statName x)

/-- Where the linker and loader put the static vtables: distinct addresses (`ref_cmp`, stat.rs:105-107). -/
structure Addr (E : Env) where
  at_ : E.S → Nat
  inj : ∀ {a b : E.S}, at_ a = at_ b → a = b

/-- `Ord for StatInst` (stat.rs:151-155): vtable address, then index -/
def StatInst.cmp (A : Addr E) (a b : StatInst E) : Ordering :=
  (compare (A.at_ a.vt) (A.at_ b.vt)).then (compare a.index b.index)

/-- `PartialEq for StatInst` (stat.rs:137-141): index and pointer equality -/
def StatInst.eq (A : Addr E) (a b : StatInst E) : Bool :=
  a.index == b.index && A.at_ a.vt == A.at_ b.vt

/-- `Hash for StatInst` (stat.rs:157-162): what is fed to the hasher, in order -/
def StatInst.hashInput (A : Addr E) (a : StatInst E) : List Nat := [a.index, A.at_ a.vt]

/-- What the 24 bytes of a `Buffer` hold (buffer.rs:32-33): a value of a value type, or (only through
`GlobalStatDefaults::patch`, plugin.rs:161) a `StatOperation`. -/
inductive Buf (E : Env) where
  | val (u : E.U) (x : E.El u)
  | op (u : E.U) (o : StatOp (E.sv u))

namespace Buf

/-- `Buffer::from::<T>` at a value type (buffer.rs:58-63) -/
def from_ (u : E.U) (x : E.El u) : Res (Buf E) := do
  validate (E.layout u)
  .ok (.val u x)

/-- `Buffer::from` at `StatOperation<T>` (buffer.rs:58-63, used at plugin.rs:161) -/
def fromOp (u : E.U) (o : StatOp (E.sv u)) : Res (Buf E) := do
  validate (E.opLayout u)
  .ok (.op u o)

/-- the bytes seen at a value type -/
def get (u : E.U) : Buf E → Res (E.El u)
  | .val v x => if h : v = u then .ok (h ▸ x) else .error .ub
  | .op _ _ => .error .ub

/-- `Buffer::{as_ref, as_mut, into, read_move}` (buffer.rs:40-55, 70-73): validate, then read the bytes at
the given type. -/
def read (u : E.U) (b : Buf E) : Res (E.El u) := do
  validate (E.layout u)
  b.get u

end Buf

/-- the vtable entry `join` (stat.rs:41-48, 72-79): both buffers are read at `T::Value` -/
def vtJoin (s : E.S) (to from_ : Buf E) : Res (Buf E) := do
  validate (E.layout (E.valTy s))
  let a ← to.get (E.valTy s)
  let b ← from_.get (E.valTy s)
  let c ← (E.sv (E.valTy s)).join a b
  .ok (.val (E.valTy s) c)

/-- the vtable entry `default` (stat.rs:49, 80) -/
def vtDefault (s : E.S) : Res (Buf E) := Buf.from_ (E.valTy s) (E.sv (E.valTy s)).default

/-- the vtable entry `clone` (stat.rs:57, 88) and `StatInst::clone_buffer` (stat.rs:128-130); `Clone` of the
value type is taken to be the identity on values. -/
def vtClone (s : E.S) (b : Buf E) : Res (Buf E) := do
  let x ← b.read (E.valTy s)
  Buf.from_ (E.valTy s) x

/-- the vtable entry `drop` (stat.rs:58-61, 89-92) and `StatInst::drop_buffer` (stat.rs:132-134): the value
is read at `T::Value` and dropped. -/
def vtDrop (s : E.S) (b : Buf E) : Res Unit := do
  let _ ← b.read (E.valTy s)
  .ok ()

/-- `StatValuePair` (stat.rs:281-284) -/
structure Pair (E : Env) where
  stat : StatInst E
  value : Buf E

namespace Pair

/-- `StatValuePair::new` (stat.rs:298-303) -/
def new (s : StatInst E) (v : s.Val) : Res (Pair E) := do
  let b ← Buf.from_ s.ty v
  .ok ⟨s, b⟩

/-- `StatValuePair::new_default` (stat.rs:305-310) -/
def newDefault (s : StatInst E) : Res (Pair E) := new s s.sv.default

/-- `StatValuePair::is` (stat.rs:313-315) -/
def is (A : Addr E) (p : Pair E) (other : StatInst E) : Bool := p.stat.eq A other

/-- `StatValuePair::cast::<T>` (stat.rs:318-329): the stat and the value, seen at `T::Value`.
The returned reference is modelled by its current content; see `write` for storing through it. -/
def cast (A : Addr E) (p : Pair E) (T : E.S) : Res (Option (E.Sel T × E.El (E.valTy T))) := do
  validate (E.statLayout T)
  if A.at_ p.stat.vt = A.at_ T then do
    let s ← E.fromIndex T p.stat.index
    let v ← p.value.get (E.valTy T)
    .ok (some (s, v))
  else .ok none

/-- `StatValuePair::is_then_cast` (stat.rs:332-340) -/
def isThenCast (A : Addr E) (p : Pair E) {T : E.S} (other : E.Sel T) : Res (Option (E.El (E.valTy T))) := do
  validate (E.statLayout T)
  if p.stat.eq A (E.asEntry other) then do
    let v ← p.value.get (E.valTy T)
    .ok (some v)
  else .ok none

/-- `StatValuePair::into_result::<T>` (stat.rs:343-350) -/
def intoResult (A : Addr E) (p : Pair E) (T : E.S) : Res (Option (E.El (E.valTy T))) := do
  validate (E.statLayout T)
  if A.at_ p.stat.vt = A.at_ T then do
    let v ← p.value.read (E.valTy T)
    .ok (some v)
  else .ok none

/-- assigning through the reference returned by `cast` / `is_then_cast` -/
def write (p : Pair E) (T : E.S) (v : E.El (E.valTy T)) : Pair E := { p with value := .val (E.valTy T) v }

/-- `StatValuePair::clone_buffer` (stat.rs:352-355) -/
def cloneBuffer (p : Pair E) : Res (Buf E) := vtClone p.stat.vt p.value

end Pair
end BSQ
