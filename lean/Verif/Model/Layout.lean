import Verif.Model.Env
import Verif.Model.Num
import Verif.Model.Types.Int
/-!
# Layouts of the crate's value types  (fields and `repr` in src/types/*.rs)

The value types are `#[repr(C, align(8))]` (`Prioritized` is `#[repr(C)]`): fields are placed in the order
declared, each at the next multiple of its alignment; the alignment is the largest of the fields' and of the
one asked for, and the size is rounded up to it (the Rust reference, "Type layout").
-/
namespace BSQ
namespace Layout

/-- next multiple of `a` -/
def roundUp (n a : Nat) : Nat := (n + a - 1) / a * a

/-- end offset after placing fields in order from an offset -/
def place : Nat → List Layout → Nat
  | off, [] => off
  | off, f :: fs => place (roundUp off f.align + f.size) fs

/-- the largest alignment (at least 1) -/
def maxAlign : List Layout → Nat
  | [] => 1
  | f :: fs => Nat.max f.align (maxAlign fs)

/-- `#[repr(C, align(a))]` struct with these fields; `a = 1` for plain `#[repr(C)]` -/
def reprC (a : Nat) (fs : List Layout) : Layout :=
  ⟨roundUp (place 0 fs) (Nat.max a (maxAlign fs)), Nat.max a (maxAlign fs)⟩

/-- primitive number of `n` bytes (`n` a power of two): integers, floats, and their `Wrapping`/`Saturating`
wrappers, which are `#[repr(transparent)]` in std -/
def prim (n : Nat) : Layout := ⟨n, n⟩

/-- `PhantomData` -/
def marker : Layout := ⟨0, 1⟩

/-- `Fraction<I>(Ratio<I>)`, `#[repr(transparent)]` (num_traits.rs:286-291); `Ratio` has two fields of the
same type, so their order does not matter. -/
def fraction (n : Nat) : Layout := reprC 1 [prim n, prim n]

/-- `StatInt` (types/int_ratio.rs:13-20): addend, min, max, mult -/
def statInt (n : Nat) : Layout := reprC 8 [prim n, prim n, prim n, prim n]

/-- `StatFloat`, `StatFloatAdditive` (types/float.rs:7-14, 75-82) of a number of layout `l`, which is a
primitive float or a `Fraction` -/
def statFloat (l : Layout) : Layout := reprC 8 [l, l, l, l]

/-- `StatIntPercentAdditive` (types/int_pct.rs:13-21) -/
def statIntPercentAdditive (n : Nat) : Layout := reprC 8 [prim n, prim n, prim n, prim n, marker]

/-- `StatIntFraction` (types/int_ratio.rs:81-91): addend, min, max, mult, rounding -/
def statIntFraction (n : Nat) : Layout := reprC 8 [prim n, prim n, prim n, fraction n, marker]

/-- `StatIntPercent` (types/int_pct.rs:89-99): addend, mult, min, max, rounding -/
def statIntPercent (n : Nat) : Layout := reprC 8 [prim n, fraction n, prim n, prim n, marker]

/-- `StatIntFloatMul<T, F>` (types/int_ratio.rs:158-166) -/
def statIntFloatMul (n f : Nat) : Layout := reprC 8 [prim n, prim n, prim n, prim f, marker]

/-- `StatMult` (types/float.rs:145-151) -/
def statMult (l : Layout) : Layout := reprC 8 [l, l, l]

/-- `StatFlags` (types/flags.rs:10-15) for a flag type of layout `l` -/
def statFlags (l : Layout) : Layout := reprC 8 [l, l]

/-- `StatExists` (types/singleton.rs:9-11) -/
def statExists : Layout := reprC 8 [prim 1]

/-- `StatOnce<T>` (types/singleton.rs:41-48), an enum with `#[repr(C, align(8))]`: a C `int` for the variant,
then the payload of `Found`. -/
def statOnce (l : Layout) : Layout := reprC 8 [prim 4, l]

/-- `Prioritized<T>` (types/prioritized.rs:10-15), `#[repr(C)]`: value, priority -/
def prioritized (l : Layout) : Layout := reprC 1 [l, prim 4]

end Layout
end BSQ
