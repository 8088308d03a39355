import Verif.Model.Postcard
import Verif.Spec.StatMap
import Mathlib.Data.Nat.Digits.Defs
/-!
# What is expected of bytes  (C132)
-/
namespace BSQ
namespace Postcard

/-- the widths of the integer types of Rust -/
def Width (n : Nat) : Prop := n = 8 ∨ n = 16 ∨ n = 32 ∨ n = 64 ∨ n = 128

/-- one or more bytes, of which all but the last have the highest bit set -/
def Continued : List UInt8 → Prop
  | [] => False
  | [b] => b.toNat < 128
  | b :: c => 128 ≤ b.toNat ∧ Continued c

/-- the number whose digits to base 128, the lowest first, are the lower 7 bits of the bytes -/
def digits : List UInt8 → Nat
  | [] => 0
  | b :: c => b.toNat % 128 + 128 * digits c

/-- the number whose digits to base 256, the lowest first, are the bytes -/
def bytesNat (b : List UInt8) : Nat := Nat.ofDigits 256 (b.map UInt8.toNat)

/-- Writing and reading fit together.
* `roundtrip`: what was written is read back, whatever follows it, and what follows is left alone.
* `grows`: what is read does not depend on what follows.
* `front`: reading takes bytes from the front.
* `again`: what was read can be written. -/
structure Shape.Lawful (s : Shape) : Prop where
  roundtrip : ∀ d b r, s.put d = some b → s.get (b ++ r) = some (d, r)
  grows : ∀ b d r t, s.get b = some (d, r) → s.get (b ++ t) = some (d, r ++ t)
  front : ∀ b d r, s.get b = some (d, r) → ∃ u, b = u ++ r
  again : ∀ b d r, s.get b = some (d, r) → ∃ u, s.put d = some u

/-- `c` gives for the meaning of a pattern a pattern of this meaning -/
def Picks {w p : ℕ} (c : Fl → FBits w p) : Prop := ∀ b : FBits w p, (c b.denotes).denotes = b.denotes

/-- impls `k` that write data of this shape -/
def Shape.Fits {α : Type} (s : Shape) (k : Codec α) (P : α → Prop) : Prop :=
  ∀ x, P x → ∃ b, s.put (k.ser x) = some b

/-- Reading that may panic.  What is read, and whether reading panics, does not depend on what follows. -/
def Grows {α : Type} (f : List UInt8 → Res (Option (α × List UInt8))) : Prop :=
  ∀ b t, (∀ a r, f b = .ok (some (a, r)) → f (b ++ t) = .ok (some (a, r ++ t))) ∧
    ∀ e, f b = .error e → f (b ++ t) = .error e

/-- reading `b` again and again gives `l`, and leaves `r` -/
def ReadsAll {α : Type} (f : List UInt8 → Res (Option (α × List UInt8))) : List UInt8 → List α → List UInt8 → Prop
  | b, [], r => b = r
  | b, a :: l, r => ∃ b', f b = .ok (some (a, b')) ∧ ReadsAll f b' l r

variable {E : Env} {Q : Type}

/-- all shapes of a program are lawful -/
structure Shapes.Lawful (W : Shapes E) : Prop where
  qual : W.qual.Lawful
  val : ∀ u, (W.val u).Lawful

/-- a lawful shape that impls `k` write for values with `P` -/
def Shape.For {α : Type} (s : Shape) (k : Codec α) (P : α → Prop) : Prop := s.Lawful ∧ s.Fits k P

/-- An entry that can be saved, and loaded again where `reg` are the registered stats: its value and qualifier survive
their own impls and have the shapes given, its stat supports saving and is registered under its name (which, like all
strings, is shorter than `2 ^ 64` bytes). -/
structure Saves (X : Serde E Q) (W : Shapes E) (reg : Registry E) (e : Entry E Q (Buf E)) : Prop where
  value : ∃ x : e.stat.Val, e.buf = .val e.stat.ty x ∧ Storable (E.layout e.stat.ty) ∧
    X.de e.stat.ty (X.ser e.stat.ty x) = some x ∧ ∃ b, (W.val e.stat.ty).put (X.ser e.stat.ty x) = some b
  qual : X.deQ (X.serQ e.qual) = some e.qual ∧ ∃ b, W.qual.put (X.serQ e.qual) = some b
  supported : X.supported e.stat.vt = true
  name : ∃ n, e.stat.name = .ok n ∧ reg n = some e.stat ∧ n.toByteArray.data.toList.length < 2 ^ 64

/-- `b` are the bytes of the entry `e`: the number 3, the qualifier, the length and the letters of the name of the stat,
and the value -/
def EntryBytes (X : Serde E Q) (W : Shapes E) (e : Entry E Q (Buf E)) (b : List UInt8) : Prop :=
  ∃ (x : e.stat.Val) (n : String) (bq bv : List UInt8), e.buf = .val e.stat.ty x ∧ X.supported e.stat.vt = true ∧
    e.stat.name = .ok n ∧ n.toByteArray.data.toList.length < 2 ^ 64 ∧ W.qual.put (X.serQ e.qual) = some bq ∧
    (W.val e.stat.ty).put (X.ser e.stat.ty x) = some bv ∧
    b = 3 :: bq ++ putNat 64 n.toByteArray.data.toList.length ++ n.toByteArray.data.toList ++ bv

/-- the bytes `b` begin with the entry `e`, followed by `r`: a number of elements, at least 3, a qualifier, the name of a
stat and a value of its type -/
def BeginsWith (X : Serde E Q) (W : Shapes E) (reg : Registry E) (b : List UInt8) (e : Entry E Q (Buf E))
    (r : List UInt8) : Prop :=
  ∃ n b₁ dq b₂ name b₃ dv x, getNat 64 b = some (n, b₁) ∧ 3 ≤ n ∧ W.qual.get b₁ = some (dq, b₂) ∧
    X.deQ dq = some e.qual ∧ Shape.str.get b₂ = some (.str name, b₃) ∧ reg name = some e.stat ∧
    (W.val e.stat.ty).get b₃ = some (dv, r) ∧ X.de e.stat.ty dv = some x ∧ e.buf = .val e.stat.ty x

/-- the bytes `b` begin with these entries, one after the other, followed by `r` -/
def BeginsWithAll (X : Serde E Q) (W : Shapes E) (reg : Registry E) :
    List UInt8 → List (Entry E Q (Buf E)) → List UInt8 → Prop
  | b, [], r => b = r
  | b, e :: l, r => ∃ b', BeginsWith X W reg b e b' ∧ BeginsWithAll X W reg b' l r

end Postcard
end BSQ
