import Verif.Model.Layout
/-!
# Raw accesses of `Buffer`  (src/buffer.rs), at the level of addresses

The rest of the model treats a `Buffer` as a box that holds a value.  Here only *where* the bytes lie matters:
an access at a type through a raw pointer is undefined behaviour unless the pointer is aligned for the type
and the type's bytes lie within the object (`ptr::read`, `ptr::write`, `*const T::as_ref`).
-/
namespace BSQ
namespace Memory

/-- a raw access at a type of layout `l`, at address `addr` of an object with `room` bytes from there on -/
def access (l : Layout) (addr room : Nat) : Res Unit :=
  if l.align ∣ addr ∧ l.size ≤ room then .ok () else .error .ub

/-- layout of `[MaybeUninit<u8>; 24]` -/
def bytes24 : Layout := ⟨24, 1⟩

/-- layout of `Buffer`, `#[repr(C, align(8))]` around the bytes (buffer.rs:32-33); `UnsafeCell` is
`#[repr(transparent)]` -/
def buffer : Layout := Layout.reprC 8 [bytes24]

/-- `Buffer::{as_ref, as_mut, into, read_move}` (buffer.rs:40-55, 70-73) on a buffer at address `addr` -/
def read (l : Layout) (addr : Nat) : Res Unit := do
  validate l
  access l addr buffer.size

/-- the accesses of the vtable entry `join` (stat.rs:41-48, 72-79) to two buffers -/
def join (l : Layout) (to from_ : Nat) : Res Unit := do
  validate l
  access l to buffer.size
  access l from_ buffer.size

/-- the access of `StatValuePair::{cast, is_then_cast}` (stat.rs:318-340): the stat type is validated, then
the buffer is accessed at the value type -/
def cast (stat value : Layout) (addr : Nat) : Res Unit := do
  validate stat
  access value addr buffer.size

/-- the write of `Buffer::from` (buffer.rs:58-63): to the local variable `buffer`, a plain array of bytes at
address `addr`, before it is moved into the `Buffer` -/
def from_ (l : Layout) (addr : Nat) : Res Unit := do
  validate l
  access l addr bytes24.size

end Memory
end BSQ
