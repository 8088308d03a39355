import Verif.Model.SerdeTypes
import Verif.Model.Postcard
import Verif.Model.Layout
import Verif.Model.Ieee
import Verif.Model.Types.Float
import Verif.Model.Plugin
import Verif.Spec.StatMap
/-!
# tests/serde.rs on the model (tests, not proofs)
-/
namespace BSQ.Tests.SaveLoad

/-- one stat type per value type (tests/serde.rs:53-63) -/
inductive K where
  | sInt | sUInt | sFloat32 | sFlags | sString | sIntPct | sIntFrac | sMul | sFracMul
  deriving DecidableEq

abbrev i32 : NumTy := ⟨.i32, .prim, .debug⟩
abbrev u32 : NumTy := ⟨.u32, .prim, .debug⟩
abbrev i8 : NumTy := ⟨.i8, .prim, .debug⟩

abbrev El : K → Type
  | .sInt | .sUInt => StatInt
  | .sFloat32 => StatFloat Fl
  | .sFlags => StatFlags (BitVec 32)
  | .sString => StatOnce String
  | .sIntPct => StatIntPercent
  | .sIntFrac => StatIntFraction
  | .sMul => StatMult Fl
  | .sFracMul => StatMult Frac

abbrev sv : (u : K) → StatValue (El u)
  | .sInt => statInt i32
  | .sUInt => statInt u32
  | .sFloat32 => statFloat (Fl.ops .f32)
  | .sFlags => statFlags (BitVec 32)
  | .sString => statOnce String
  | .sIntPct => statIntPercent i32 .truncate 100
  | .sIntFrac => statIntFraction i8 .truncate
  | .sMul => statMult (Fl.ops .f32)
  | .sFracMul => statMult (Frac.ops i32)

def layout : K → Layout
  | .sInt | .sUInt => .statInt 4
  | .sFloat32 => .statFloat (.prim 4)
  | .sFlags => .statFlags (.prim 4)
  | .sString => .statOnce ⟨16, 8⟩
  | .sIntPct => .statIntPercent 4
  | .sIntFrac => .statIntFraction 1
  | .sMul => .statMult (.prim 4)
  | .sFracMul => .statMult (.fraction 4)

def stringName : K → String
  | .sInt => "SInt"
  | .sUInt => "SUInt"
  | .sFloat32 => "SFloat32"
  | .sFlags => "SFlags"
  | .sString => "SString"
  | .sIntPct => "SIntPct"
  | .sIntFrac => "SIntFrac"
  | .sMul => "SMul"
  | .sFracMul => "SFracMul"

abbrev prog : Env where
  U := K
  El := El
  sv := sv
  layout := layout
  opLayout _ := ⟨24, 8⟩
  S := K
  valTy s := s
  statLayout _ := ⟨0, 1⟩
  Sel _ := Unit
  asIndex _ := 0
  fromIndex _ _ := .ok ()
  statName {s} _ := stringName s
  values _ := [()]

/-- some order of the statics -/
def addr : Addr prog where
  at_ s := match s with
    | .sInt => 5 | .sUInt => 3 | .sFloat32 => 9 | .sFlags => 1 | .sString => 8
    | .sIntPct => 2 | .sIntFrac => 7 | .sMul => 4 | .sFracMul => 6
  inj {a b} h := by revert h; cases a <;> cases b <;> simp

def serde (f : Format) : Serde prog Bool where
  serQ := (Codec.qualifier f .bool).ser
  deQ := (Codec.qualifier f .bool).de
  ser u := match u with
    | .sInt => (Codec.statInt f .i32).ser
    | .sUInt => (Codec.statInt f .u32).ser
    | .sFloat32 => (Codec.statFloat f (.float .f32)).ser
    | .sFlags => (Codec.statFlags f (.bits 32)).ser
    | .sString => (Codec.statOnce f .string).ser
    | .sIntPct => (Codec.statIntPercent f .i32).ser
    | .sIntFrac => (Codec.statIntFraction f .i8).ser
    | .sMul => (Codec.statMult f (.float .f32)).ser
    | .sFracMul => (Codec.statMult f (.frac f .i32)).ser
  de u := match u with
    | .sInt => (Codec.statInt f .i32).de
    | .sUInt => (Codec.statInt f .u32).de
    | .sFloat32 => (Codec.statFloat f (.float .f32)).de
    | .sFlags => (Codec.statFlags f (.bits 32)).de
    | .sString => (Codec.statOnce f .string).de
    | .sIntPct => (Codec.statIntPercent f .i32).de
    | .sIntFrac => (Codec.statIntFraction f .i8).de
    | .sMul => (Codec.statMult f (.float .f32)).de
    | .sFracMul => (Codec.statMult f (.frac f .i32)).de
  supported _ := true
  fmt := f

abbrev st (k : K) : StatInst prog := ⟨k, 0⟩
abbrev q : Qualifier Bool := .ofAll false
abbrev M := StatMap prog Bool

def base : Res M := do
  let m ← StatMap.insertBase addr .new q (st .sInt) (-4 : Int)
  let m ← StatMap.insertBase addr m q (st .sUInt) (7 : Int)
  let m ← StatMap.insertBase addr m q (st .sFloat32) (.fin (7 / 2) : Fl)
  let m ← StatMap.insertBase addr m q (st .sFlags) (32 : BitVec 32)
  let m ← StatMap.insertBase addr m q (st .sString) "Ferris the Rustacean"
  let m ← StatMap.insertBase addr m q (st .sIntFrac) (69 : Int)
  let m ← StatMap.insertBase addr m q (st .sIntPct) (420 : Int)
  let m ← StatMap.insertBase addr m q (st .sMul) (.fin (3 / 2) : Fl)
  let f ← Frac.new i32 44 57
  StatMap.insertBase addr m q (st .sFracMul) f

def op : Res M := do
  let m ← StatMap.modify addr .new q (st .sInt) (.add (-4 : Int))
  let m ← StatMap.modify addr m q (st .sUInt) (.max (7 : Int))
  let m ← StatMap.modify addr m q (st .sFloat32) (.min (.fin (7 / 2) : Fl))
  let m ← StatMap.modify addr m q (st .sFlags) (.or (32 : BitVec 32))
  let m ← StatMap.modify addr m q (st .sString) (.not "Ferris the Rustacean")
  let f ← Frac.new i8 43 (-47)
  let m ← StatMap.modify addr m q (st .sIntFrac) (.mul f)
  let m ← StatMap.modify addr m q (st .sIntPct) (.mul (32 : Int))
  let m ← StatMap.modify addr m q (st .sMul) (.mul (.fin (817 / 8) : Fl))
  let g ← Frac.new i32 0 1
  StatMap.modify addr m q (st .sFracMul) (.mul g)

def full : Res M := do
  let m ← StatMap.insert addr .new q (st .sInt) (sv .sInt).default
  let m ← StatMap.insert addr m q (st .sUInt) (sv .sUInt).default
  let m ← StatMap.insert addr m q (st .sString) (sv .sString).default
  let m ← StatMap.insert addr m q (st .sIntFrac) (sv .sIntFrac).default
  let m ← StatMap.insert addr m q (st .sIntPct) (sv .sIntPct).default
  let m ← StatMap.insert addr m q (st .sFracMul) (sv .sFracMul).default
  let m ← StatMap.insert addr m q (st .sFloat32) (sv .sFloat32).default
  let m ← StatMap.insert addr m q (st .sFlags) (sv .sFlags).default
  StatMap.insert addr m q (st .sMul) (sv .sMul).default

/-- the world after registering the nine stat types -/
def registry : Res (Deserializers prog) := do
  let r ← Deserializers.register addr .sInt []
  let r ← Deserializers.register addr .sUInt r
  let r ← Deserializers.register addr .sFloat32 r
  let r ← Deserializers.register addr .sFlags r
  let r ← Deserializers.register addr .sString r
  let r ← Deserializers.register addr .sIntPct r
  let r ← Deserializers.register addr .sIntFrac r
  let r ← Deserializers.register addr .sMul r
  Deserializers.register addr .sFracMul r

mutual
/-- equality of serialised data -/
def same : Data → Data → Bool
  | .unit, .unit => true
  | .bool a, .bool b => a == b
  | .int a, .int b => a == b
  | .float a, .float b => a == b
  | .str a, .str b => a == b
  | .seq a, .seq b => sameAll a b
  | .fields a, .fields b => sameFields a b
  | .unitVariant a, .unitVariant b => a == b
  | .newtypeVariant a x, .newtypeVariant b y => a == b && same x y
  | _, _ => false
def sameAll : List Data → List Data → Bool
  | [], [] => true
  | x :: a, y :: b => same x y && sameAll a b
  | _, _ => false
def sameFields : List (String × Data) → List (String × Data) → Bool
  | [], [] => true
  | (n, x) :: a, (m, y) :: b => n == m && same x y && sameFields a b
  | _, _ => false
end

/-- save, load, save again: the number of loaded entries and whether both saves agree -/
def again (f : Format) (m : Res M) : Res (Option (Nat × Bool)) := do
  let m ← m
  let r ← registry
  let d ← (serde f).serMap m
  let o ← (serde f).deMap (.registry (Deserializers.get r)) d
  match o with
  | none => .ok none
  | some m' => do
    let d' ← (serde f).serMap m'
    .ok (some (m'.length, same d' d))

/-- serde_json -/
abbrev json : Format := ⟨true, true⟩
/-- postcard -/
abbrev postcard : Format := ⟨false, false⟩

example : again json base = .ok (some (9, true)) := by decide +kernel
example : again json op = .ok (some (9, true)) := by decide +kernel
example : again json full = .ok (some (9, true)) := by decide +kernel
example : again postcard full = .ok (some (9, true)) := by decide +kernel

/-! ### bytes -/

/-- the bits of an `f32` -/
def bits32 : Fl → FBits 8 24
  | .nan => ⟨false, 255, 0x400000⟩
  | .pinf => ⟨false, 255, 0⟩
  | .ninf => ⟨true, 255, 0⟩
  | .fin q =>
    let m := (|q| * 2 ^ 149).floor.toNat
    let k := Nat.log2 m
    if k < 23 then ⟨decide (q < 0), 0, Fin.ofNat _ m⟩
    else ⟨decide (q < 0), Fin.ofNat _ (k - 22), Fin.ofNat _ (m / 2 ^ (k - 23))⟩

open Postcard in
def shapes : Shapes prog where
  qual := .two .bool
  val u := match u with
    | .sInt => .statInt .i32
    | .sUInt => .statInt .u32
    | .sFloat32 => .statFloat (.float bits32)
    | .sFlags => .two (.int .u32)
    | .sString => .statOnce .str
    | .sIntPct => .statIntPercent .i32
    | .sIntFrac => .statIntFraction .i8
    | .sMul => .statMult (.float bits32)
    | .sFracMul => .statMult (.frac .i32)

/-- save as bytes, load, save again (tests/serde.rs:194-215) -/
def bytes (m : Res M) : Res (Option (List UInt8)) := do
  let m ← m
  Postcard.writeMap (serde postcard) shapes m

def bytesAgain (m : Res M) : Res (Option (List UInt8 × List UInt8)) := do
  let b ← bytes m
  let r ← registry
  match b with
  | none => .ok none
  | some b => do
    let o ← Postcard.readMap (serde postcard) shapes (.registry (Deserializers.get r)) b
    match o with
    | none => .ok none
    | some (m', rest) => do
      let b' ← Postcard.writeMap (serde postcard) shapes m'
      .ok (b'.map fun b' => (b', rest))

example : bytesAgain base = (bytes base).map (Option.map (·, [])) ∧ bytes base ≠ .ok none := by decide +kernel
example : bytesAgain op = (bytes op).map (Option.map (·, [])) ∧ bytes op ≠ .ok none := by decide +kernel
example : bytesAgain full = (bytes full).map (Option.map (·, [])) ∧ bytes full ≠ .ok none := by decide +kernel

/-- the bytes of single entries -/
example : bytes (StatMap.insertBase addr .new q (st .sInt) (-4 : Int)) =
    .ok (some ([1, 3, 0, 0, 4, 0x53, 0x49, 0x6e, 0x74] ++
      [7, 0xff, 0xff, 0xff, 0xff, 0x0f, 0xfe, 0xff, 0xff, 0xff, 0x0f, 2])) := by decide +kernel
example : bytes (StatMap.insertBase addr .new q (st .sMul) (.fin (3 / 2) : Fl)) =
    .ok (some ([1, 3, 0, 0, 4, 0x53, 0x4d, 0x75, 0x6c] ++
      [0xff, 0xff, 0x7f, 0xff, 0xff, 0xff, 0x7f, 0x7f, 0, 0, 0xc0, 0x3f])) := by decide +kernel
example : bytes (StatMap.insertBase addr .new q (st .sString) "Ferris") =
    .ok (some ([1, 3, 0, 0, 7, 0x53, 0x53, 0x74, 0x72, 0x69, 0x6e, 0x67] ++
      [1, 6, 0x46, 0x65, 0x72, 0x72, 0x69, 0x73])) := by decide +kernel

end BSQ.Tests.SaveLoad
