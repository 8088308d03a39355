import Verif.Model.SerdeTypes
import Verif.Model.FloatBits
/-!
# Maps saved as bytes with `postcard`  (used by tests/serde.rs:194-215)

`postcard` (an external crate, modelled after its wire format) writes no names and no types: what the bytes mean is known
only to the impl that reads them.  For a `StatMap` this is src/stat_map.rs:64-70, 380-455: the type of a value is found
through the name that precedes it.
-/
namespace BSQ
namespace Postcard

/-- an unsigned number in groups of 7 bits, the lowest first; all but the last byte have the highest bit set.  `k` is the
largest number of bytes -/
def putVar : Nat → Nat → List UInt8
  | 0, _ => []
  | k + 1, n => if n < 128 then [UInt8.ofNat n] else UInt8.ofNat (n % 128 + 128) :: putVar k (n / 128)

/-- reading it: at most `k` bytes, of which the last may be at most `last` -/
def getVar (last : Nat) : Nat → List UInt8 → Option (Nat × List UInt8)
  | 0, _ => none
  | _ + 1, [] => none
  | k + 1, b :: r =>
    if b.toNat < 128 then
      if k = 0 ∧ last < b.toNat then none else some (b.toNat, r)
    else (getVar last k r).map fun x => (b.toNat - 128 + 128 * x.1, x.2)

/-- unsigned numbers of `n` bits (`varint_max`, `max_of_last_byte`) -/
def putNat (n : Nat) (x : Nat) : List UInt8 := putVar ((n + 6) / 7) x
def getNat (n : Nat) : List UInt8 → Option (Nat × List UInt8) := getVar (2 ^ (n % 7) - 1) ((n + 6) / 7)

/-- signed numbers are mapped to unsigned ones: `0, -1, 1, -2, …` -/
def zigzag (i : Int) : Nat := if 0 ≤ i then (2 * i).toNat else (-2 * i - 1).toNat
def unzigzag (n : Nat) : Int := if n % 2 = 0 then (n / 2 : Nat) else -((n / 2 : Nat) : Int) - 1

/-- integers; those of 8 bits are written as they are -/
def putInt (t : IntTy) (i : Int) : List UInt8 :=
  if t.bits = 8 then [UInt8.ofNat (i % 256).toNat]
  else putNat t.bits (if t.signed then zigzag i else i.toNat)
def getInt (t : IntTy) (b : List UInt8) : Option (Int × List UInt8) :=
  if t.bits = 8 then
    match b with
    | [] => none
    | x :: r => some (if t.signed ∧ 128 ≤ x.toNat then (x.toNat : Int) - 256 else x.toNat, r)
  else (getNat t.bits b).map fun x => (if t.signed then unzigzag x.1 else x.1, x.2)

/-- `k` bytes, the lowest first -/
def putLE : Nat → Nat → List UInt8
  | 0, _ => []
  | k + 1, n => UInt8.ofNat (n % 256) :: putLE k (n / 256)
def getLE : Nat → List UInt8 → Option (Nat × List UInt8)
  | 0, b => some (0, b)
  | _ + 1, [] => none
  | k + 1, x :: b => (getLE k b).map fun y => (x.toNat + 256 * y.1, y.2)

section
variable {w p : ℕ}

/-- the bits of a float as a number -/
def code (b : FBits w p) : Nat :=
  (if b.neg then 2 ^ (w + (p - 1)) else 0) + b.exp.val * 2 ^ (p - 1) + b.man.val
def ofCode (n : Nat) : FBits w p where
  neg := decide (n / 2 ^ (w + (p - 1)) % 2 = 1)
  exp := ⟨n / 2 ^ (p - 1) % 2 ^ w, Nat.mod_lt _ (by positivity)⟩
  man := ⟨n % 2 ^ (p - 1), Nat.mod_lt _ (by positivity)⟩
end

/-- How an impl writes a datum, and what it reads.  `put` is `none` for data the impl never produces. -/
structure Shape where
  put : Data → Option (List UInt8)
  get : List UInt8 → Option (Data × List UInt8)

namespace Shape

/-- units and unit structs take no bytes -/
def unit : Shape where
  put d := match d with
    | .unit => some []
    | _ => none
  get b := some (.unit, b)

def bool : Shape where
  put d := match d with
    | .bool x => some [if x then 1 else 0]
    | _ => none
  get b := match b with
    | [] => none
    | x :: r => if x = 0 then some (.bool false, r) else if x = 1 then some (.bool true, r) else none

def int (t : IntTy) : Shape where
  put d := match d with
    | .int i => if t.InRange i then some (putInt t i) else none
    | _ => none
  get b := (getInt t b).map fun x => (.int x.1, x.2)

/-- floats, as bits; `c` is the pattern of a value (for zero and NaN there are several) -/
def float {w p : ℕ} (c : Fl → FBits w p) : Shape where
  put d := match d with
    | .float x => if (c x).denotes = x then some (putLE ((w + p) / 8) (code (c x))) else none
    | _ => none
  get b := (getLE ((w + p) / 8) b).map fun x => (.float (ofCode x.1 : FBits w p).denotes, x.2)

/-- strings: the number of bytes, then UTF-8 -/
def str : Shape where
  put d := match d with
    | .str s =>
      if s.toByteArray.data.toList.length < 2 ^ 64 then
        some (putNat 64 s.toByteArray.data.toList.length ++ s.toByteArray.data.toList)
      else none
    | _ => none
  get b := match getNat 64 b with
    | none => none
    | some (n, b) =>
      if b.length < n then none
      else (String.fromUTF8? ⟨(b.take n).toArray⟩).map fun s => (.str s, b.drop n)

/-- the parts of a tuple or struct, one after the other -/
def putAll : List Shape → List Data → Option (List UInt8)
  | [], [] => some []
  | s :: ss, d :: ds =>
    match s.put d, putAll ss ds with
    | some b, some c => some (b ++ c)
    | _, _ => none
  | _, _ => none
def getAll : List Shape → List UInt8 → Option (List Data × List UInt8)
  | [], b => some ([], b)
  | s :: ss, b =>
    match s.get b with
    | none => none
    | some (d, b) => (getAll ss b).map fun x => (d :: x.1, x.2)

/-- tuples and structs -/
def tuple (l : List Shape) : Shape where
  put d := match d with
    | .seq ds => putAll l ds
    | _ => none
  get b := (getAll l b).map fun x => (.seq x.1, x.2)

/-- enums: the number of the variant, then its content (`none` for unit variants) -/
def variants (l : List (Option Shape)) : Shape where
  put d := match d with
    | .unitVariant (.inr i) =>
      match l[i]? with
      | some none => some (putNat 32 i)
      | _ => none
    | .newtypeVariant (.inr i) d =>
      match l[i]? with
      | some (some s) => (s.put d).map (putNat 32 i ++ ·)
      | _ => none
    | _ => none
  get b := match getNat 32 b with
    | none => none
    | some (i, b) =>
      match l[i]? with
      | none => none
      | some none => some (.unitVariant (.inr i), b)
      | some (some s) => (s.get b).map fun x => (.newtypeVariant (.inr i) x.1, x.2)

/-- `Fraction` (num_traits.rs:286-291): a pair -/
def frac (t : IntTy) : Shape := tuple [int t, int t]
/-- `StatInt` (types/int_ratio.rs:13) -/
def statInt (t : IntTy) : Shape := tuple [int t, int t, int t, int t]
/-- `StatIntFraction` (types/int_ratio.rs:81-83) -/
def statIntFraction (t : IntTy) : Shape := tuple [int t, int t, int t, frac t, unit]
/-- `StatIntFloatMul` (types/int_ratio.rs:158) -/
def statIntFloatMul (t : IntTy) (f : Shape) : Shape := tuple [int t, int t, int t, f, unit]
/-- `StatIntPercentAdditive` (types/int_pct.rs:13) -/
def statIntPercentAdditive (t : IntTy) : Shape := tuple [int t, int t, int t, int t, unit]
/-- `StatIntPercent` (types/int_pct.rs:89-91) -/
def statIntPercent (t : IntTy) : Shape := tuple [int t, frac t, int t, int t, unit]
/-- `StatFloat` (types/float.rs:7) and `StatFloatAdditive` (types/float.rs:75) -/
def statFloat (f : Shape) : Shape := tuple [f, f, f, f]
/-- `StatMult` (types/float.rs:145) -/
def statMult (f : Shape) : Shape := tuple [f, f, f]
/-- `StatFlags` (types/flags.rs:10) and `Qualifier` (qualifier.rs:78-84) -/
def two (s : Shape) : Shape := tuple [s, s]
/-- `StatOnce` (types/singleton.rs:41-48) -/
def statOnce (s : Shape) : Shape := variants [none, some s, none]
/-- `Prioritized` (types/prioritized.rs:10-15) -/
def prioritized (s : Shape) : Shape := tuple [s, int .i32]
/-- `StatOperation` (operations.rs:5-14) -/
def statOp (add mul bit bounds base : Shape) : Shape :=
  variants [some add, some mul, some bit, some bit, some bounds, some bounds, some base]

end Shape

variable {E : Env} {Q : Type}

/-- the shapes of the qualifier and of the value types -/
structure Shapes (E : Env) where
  qual : Shape
  val : E.U → Shape

variable (X : Serde E Q) (W : Shapes E)

/-- `Serialize for StatMapEntry` (stat_map.rs:380-388): a sequence of 3 elements.  `ok none`: the data do not have the
shape given -/
def writeEntry (e : Entry E Q (Buf E)) : Res (Option (List UInt8)) := do
  let n ← e.stat.name
  let v ← X.asSerialize e.stat e.buf
  .ok (match W.qual.put (X.serQ e.qual), Shape.str.put (.str n), (W.val e.stat.ty).put v with
    | some a, some b, some c => some (putNat 64 3 ++ (a ++ (b ++ c)))
    | _, _, _ => none)

/-- all entries in order -/
def writeEntries : List (Entry E Q (Buf E)) → Res (Option (List UInt8))
  | [] => .ok (some [])
  | e :: l => do
    let b ← writeEntry X W e
    let c ← writeEntries l
    .ok (match b, c with
      | some b, some c => some (b ++ c)
      | _, _ => none)

/-- derived `Serialize for StatMap` (stat_map.rs:64): the length of the vector, then the entries -/
def writeMap (m : StatMap E Q) : Res (Option (List UInt8)) := do
  let b ← writeEntries X W m
  .ok (b.map (putNat 64 m.length ++ ·))

/-- the vtable entry `deserialize` (stat.rs:52-56, 87) -/
def readValue (s : StatInst E) (b : List UInt8) : Res (Option (Buf E × List UInt8)) :=
  if X.supported s.vt then do
    validate (E.layout s.ty)
    match (W.val s.ty).get b with
    | none => .ok none
    | some (d, b) =>
      match X.de s.ty d with
      | none => .ok none
      | some v => do
        let x ← Buf.from_ s.ty v
        .ok (some (x, b))
  else .error .panic

/-- the value, if the sequence has `n` more elements (stat_map.rs:437-444); elements after it stay unread -/
def readThird (n : Nat) (q : Qualifier Q) (s : StatInst E) (b : List UInt8) :
    Res (Option (Entry E Q (Buf E) × List UInt8)) :=
  if n = 0 then .ok none
  else do
    let o ← readValue X W s b
    .ok (o.map fun x => (⟨s, q, x.1⟩, x.2))

/-- the stat, by its name (stat_map.rs:434-436) -/
def readSecond (sc : DeScope E) (n : Nat) (q : Qualifier Q) (b : List UInt8) :
    Res (Option (Entry E Q (Buf E) × List UInt8)) :=
  if n = 0 then .ok none
  else
    match Shape.str.get b with
    | none => .ok none
    | some (d, b) => do
      let s ← Serde.deStat sc d
      match s with
      | none => .ok none
      | some s => readThird X W (n - 1) q s b

/-- `Deserialize for StatMapEntry` through `TupleSeed::visit_seq` (stat_map.rs:390-400, 427-445): the number of elements,
then as many of the three as there are -/
def readEntry (sc : DeScope E) (b : List UInt8) : Res (Option (Entry E Q (Buf E) × List UInt8)) :=
  match getNat 64 b with
  | none => .ok none
  | some (n, b) =>
    if n = 0 then .ok none
    else
      match W.qual.get b with
      | none => .ok none
      | some (d, b) =>
        match X.deQ d with
        | none => .ok none
        | some q => readSecond X W sc (n - 1) q b

/-- `k` entries; the first failure wins -/
def readEntries (sc : DeScope E) : Nat → List UInt8 → Res (Option (List (Entry E Q (Buf E)) × List UInt8))
  | 0, b => .ok (some ([], b))
  | k + 1, b => do
    let e ← readEntry X W sc b
    match e with
    | none => .ok none
    | some (e, b) => do
      let l ← readEntries sc k b
      .ok (l.map fun x => (e :: x.1, x.2))

/-- derived `Deserialize for StatMap` (stat_map.rs:64).  What follows the map is left to the caller. -/
def readMap (sc : DeScope E) (b : List UInt8) : Res (Option (StatMap E Q × List UInt8)) :=
  match getNat 64 b with
  | none => .ok none
  | some (n, b) => readEntries X W sc n b

end Postcard
end BSQ
