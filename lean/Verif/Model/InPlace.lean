import Verif.Model.Types.Int
import Verif.Model.Types.Float
import Verif.Model.Plugin
/-!
# What a panicking operation leaves behind  (src/types/*.rs, src/operations.rs, src/num_traits.rs)

The methods of `StatValue` change a value in place, one field after another.  In the rest of the model a panic
yields no value; here the value is followed statement by statement, so that what it holds when a panic is caught
can be seen.  Methods that cannot panic (`StatFlags`, `StatExists`, `StatOnce`, `Prioritized`, `bool`) are left out.
-/
namespace BSQ

/-- code with a `&mut S`: how it ends, and what it leaves in `S` either way -/
def Mut (S α : Type) := S → Res α × S

namespace Mut
variable {S A α β : Type}

/-- one statement after the other; after a panic nothing more is done -/
def bind (m : Mut S α) (f : α → Mut S β) : Mut S β := fun s =>
  match m s with
  | (.ok a, s') => f a s'
  | (.error e, s') => (.error e, s')

instance : Monad (Mut S) where
  pure a := fun s => (.ok a, s)
  bind := bind

/-- the current content -/
def get : Mut S S := fun s => (.ok s, s)

/-- computing something without writing -/
def compute (x : Res α) : Mut S α := fun s => (x, s)

/-- `*place = x`, `x` being computed first -/
def assign (x : Res S) : Mut S Unit := fun s =>
  match x with
  | .ok y => (.ok (), y)
  | .error e => (.error e, s)

/-- an assignment that cannot panic -/
def update (f : S → S) : Mut S Unit := fun s => (.ok (), f s)

/-- code with a `&mut` to a part of `S` -/
def part (get : S → A) (put : S → A → S) (m : Mut A α) : Mut S α := fun s =>
  ((m (get s)).1, put s (m (get s)).2)

/-- what the caller gets of the value if the code returns -/
def outcome (m : Mut S Unit) (s : S) : Res S := (m s).1.map (fun _ => (m s).2)

/-- what is left in the value, however the code ends -/
def left (m : Mut S Unit) (s : S) : S := (m s).2

end Mut

/-! ### fractions (`num_rational` 0.4, an external crate) -/
namespace Frac
variable (t : NumTy)

def numPart {α : Type} (m : Mut Int α) : Mut Frac α := Mut.part Frac.num (fun a n => { a with num := n }) m
def denPart {α : Type} (m : Mut Int α) : Mut Frac α := Mut.part Frac.den (fun a d => { a with den := d }) m

/-- `x op= y` of a primitive integer (a panic comes before the assignment) -/
def intAssign (op : Int → Int → Res Int) (y : Int) : Mut Int Unit := fun x => Mut.assign (op x y) x

/-- `replace_with` inside `Ratio::reduce`: zero is put in while the closure runs -/
def replaceWith (f : Int → Res Int) : Mut Int Unit := fun x =>
  match f x with
  | .ok y => (.ok (), y)
  | .error e => (.error e, 0)

/-- `Ratio::reduce` in place -/
def reduceMut : Mut Frac Unit := fun a =>
  if a.den = 0 then (.error .panic, a)
  else if a.num = 0 then (.ok (), { a with den := 1 })
  else if a.num = a.den then (.ok (), ⟨1, 1⟩)
  else (do
    let g ← Mut.compute (gcd t a.num a.den)
    numPart (replaceWith (fun x => t.div x g))
    denPart (replaceWith (fun x => t.div x g))
    let b ← Mut.get
    if b.den < 0 then do
      numPart (replaceWith (fun x => t.sub 0 x))
      denPart (replaceWith (fun x => t.sub 0 x))
    else pure ()) a

/-- `MulAssign for Ratio` (through num_traits.rs:331-335, 355) -/
def mulAssign (o : Frac) : Mut Frac Unit := do
  let a ← Mut.get
  let gad ← Mut.compute (gcd t a.num o.den)
  let gbc ← Mut.compute (gcd t a.den o.num)
  numPart (intAssign t.div gad)
  let n2 ← Mut.compute (t.div o.num gbc)
  numPart (intAssign t.mul n2)
  denPart (intAssign t.div gbc)
  let d2 ← Mut.compute (t.div o.den gad)
  denPart (intAssign t.mul d2)
  reduceMut t

/-- the branch of `AddAssign` for unequal denominators: both parts are written after everything is computed -/
def sumOver (a o : Frac) : Res Frac := do
  let l ← lcm t a.den o.den
  let qa ← t.div l a.den
  let na ← t.mul a.num qa
  let qb ← t.div l o.den
  let nb ← t.mul o.num qb
  let n ← t.add na nb
  .ok ⟨n, l⟩

/-- `AddAssign for Ratio` (through num_traits.rs:331-335, 353) -/
def addAssign (o : Frac) : Mut Frac Unit := do
  let a ← Mut.get
  if a.den = o.den then numPart (intAssign t.add o.num) else Mut.assign (sumOver t a o)
  reduceMut t

end Frac

/-- `AddAssign` and `MulAssign` of an implementor of trait `Float` (num_traits.rs:14-32) -/
structure AssignOps {F : Type} (O : FloatOps F) where
  add : F → Mut F Unit
  mul : F → Mut F Unit

/-- for primitive floats, which do not panic: the sum or product is computed and assigned -/
def AssignOps.plain {F : Type} (O : FloatOps F) : AssignOps O where
  add o := fun x => Mut.assign (O.add x o) x
  mul o := fun x => Mut.assign (O.mul x o) x

/-- for fractions -/
def AssignOps.frac (t : NumTy) : AssignOps (Frac.ops t) where
  add := Frac.addAssign t
  mul := Frac.mulAssign t

/-- the methods with `&mut self` of `StatValue` (operations.rs:49, 63-70); `not`/`or` have no values to be called
with for the types below -/
structure InPlace {V : Type} (D : StatValue V) where
  join : V → Mut V Unit
  add : D.AddT → Mut V Unit
  mul : D.MulT → Mut V Unit
  min : D.BoundsT → Mut V Unit
  max : D.BoundsT → Mut V Unit

/-! ### integer stats -/

namespace StatInt
def onAddend {α : Type} (m : Mut Int α) : Mut StatInt α := Mut.part StatInt.addend (fun a x => { a with addend := x }) m
def onMult {α : Type} (m : Mut Int α) : Mut StatInt α := Mut.part StatInt.mult (fun a x => { a with mult := x }) m

/-- `StatInt` (int_ratio.rs:37-68) -/
def inPlace (t : NumTy) : InPlace (statInt t) where
  join o := do
    onAddend (Frac.intAssign t.add o.addend)
    onMult (Frac.intAssign t.mul o.mult)
    Mut.update (fun a => { a with min := t.max a.min o.min })
    Mut.update (fun a => { a with max := t.min a.max o.max })
  add o := onAddend (Frac.intAssign t.add o)
  mul o := onMult (Frac.intAssign t.mul o)
  min o := Mut.update (fun a => { a with min := t.max a.min o })
  max o := Mut.update (fun a => { a with max := t.min a.max o })
end StatInt

namespace StatIntFraction
def onAddend {α : Type} (m : Mut Int α) : Mut StatIntFraction α :=
  Mut.part StatIntFraction.addend (fun a x => { a with addend := x }) m
def onMult {α : Type} (m : Mut Frac α) : Mut StatIntFraction α :=
  Mut.part StatIntFraction.mult (fun a x => { a with mult := x }) m

/-- `StatIntFraction` (int_ratio.rs:109-145) -/
def inPlace (t : NumTy) (R : Rounding) : InPlace (statIntFraction t R) where
  join o := do
    onAddend (Frac.intAssign t.add o.addend)
    onMult (Frac.mulAssign t.primInt o.mult)
    Mut.update (fun a => { a with min := t.max a.min o.min })
    Mut.update (fun a => { a with max := t.min a.max o.max })
  add o := onAddend (Frac.intAssign t.add o)
  mul o := onMult (Frac.mulAssign t.primInt o)
  min o := Mut.update (fun a => { a with min := t.max a.min o })
  max o := Mut.update (fun a => { a with max := t.min a.max o })
end StatIntFraction

namespace StatIntFloatMul
variable {F : Type}
def onAddend {α : Type} (m : Mut Int α) : Mut (StatIntFloatMul F) α :=
  Mut.part StatIntFloatMul.addend (fun a x => { a with addend := x }) m
def onMult {α : Type} (m : Mut F α) : Mut (StatIntFloatMul F) α :=
  Mut.part StatIntFloatMul.mult (fun a x => { a with mult := x }) m

/-- `StatIntFloatMul` (int_ratio.rs:188-222) -/
def inPlace (t : NumTy) {O : FloatOps F} (M : AssignOps O) (toF : Int → F) (ofF : F → Int) (R : Rounding) :
    InPlace (statIntFloatMul t O toF ofF R) where
  join o := do
    onAddend (Frac.intAssign t.add o.addend)
    onMult (M.mul o.mult)
    Mut.update (fun a => { a with min := t.max a.min o.min })
    Mut.update (fun a => { a with max := t.min a.max o.max })
  add o := onAddend (Frac.intAssign t.add o)
  mul o := onMult (M.mul o)
  min o := Mut.update (fun a => { a with min := t.max a.min o })
  max o := Mut.update (fun a => { a with max := t.min a.max o })
end StatIntFloatMul

namespace StatIntPercentAdditive
def onAddend {α : Type} (m : Mut Int α) : Mut StatIntPercentAdditive α :=
  Mut.part StatIntPercentAdditive.addend (fun a x => { a with addend := x }) m
def onMult {α : Type} (m : Mut Int α) : Mut StatIntPercentAdditive α :=
  Mut.part StatIntPercentAdditive.mult (fun a x => { a with mult := x }) m

/-- `StatIntPercentAdditive` (int_pct.rs:39-73) -/
def inPlace (t : NumTy) (R : Rounding) (S : Int) : InPlace (statIntPercentAdditive t R S) where
  join o := do
    onAddend (Frac.intAssign t.add o.addend)
    onMult (Frac.intAssign t.add o.mult)
    Mut.update (fun a => { a with max := t.min a.max o.max })
    Mut.update (fun a => { a with min := t.max a.min o.min })
  add o := onAddend (Frac.intAssign t.add o)
  mul o := onMult (Frac.intAssign t.add o)
  min o := Mut.update (fun a => { a with min := t.max a.min o })
  max o := Mut.update (fun a => { a with max := t.min a.max o })
end StatIntPercentAdditive

namespace StatIntPercent
def onAddend {α : Type} (m : Mut Int α) : Mut StatIntPercent α :=
  Mut.part StatIntPercent.addend (fun a x => { a with addend := x }) m
def onMult {α : Type} (m : Mut Frac α) : Mut StatIntPercent α :=
  Mut.part StatIntPercent.mult (fun a x => { a with mult := x }) m

/-- `StatIntPercent` (int_pct.rs:117-150) -/
def inPlace (t : NumTy) (R : Rounding) (S : Int) : InPlace (statIntPercent t R S) where
  join o := do
    onAddend (Frac.intAssign t.add o.addend)
    onMult (Frac.addAssign t.primInt o.mult)
    Mut.update (fun a => { a with max := t.min a.max o.max })
    Mut.update (fun a => { a with min := t.max a.min o.min })
  add o := onAddend (Frac.intAssign t.add o)
  mul o := do
    let s ← Mut.compute (t.fromI64 S)
    let f ← Mut.compute (t.buildFraction o s)
    onMult (Frac.mulAssign t.primInt f)
  min o := Mut.update (fun a => { a with min := t.max a.min o })
  max o := Mut.update (fun a => { a with max := t.min a.max o })
end StatIntPercent

/-! ### float stats -/

namespace StatFloat
variable {F : Type}
def onAddend {α : Type} (m : Mut F α) : Mut (StatFloat F) α := Mut.part StatFloat.addend (fun a x => { a with addend := x }) m
def onMult {α : Type} (m : Mut F α) : Mut (StatFloat F) α := Mut.part StatFloat.mult (fun a x => { a with mult := x }) m

/-- `StatFloat` (float.rs:31-62) -/
def inPlace {O : FloatOps F} (M : AssignOps O) : InPlace (statFloat O) where
  join o := do
    onAddend (M.add o.addend)
    onMult (M.mul o.mult)
    Mut.update (fun a => { a with min := O.max a.min o.min })
    Mut.update (fun a => { a with max := O.min a.max o.max })
  add o := onAddend (M.add o)
  mul o := onMult (M.mul o)
  min o := Mut.update (fun a => { a with min := O.max a.min o })
  max o := Mut.update (fun a => { a with max := O.min a.max o })
end StatFloat

namespace StatFloatAdditive
variable {F : Type}
def onAddend {α : Type} (m : Mut F α) : Mut (StatFloatAdditive F) α :=
  Mut.part StatFloatAdditive.addend (fun a x => { a with addend := x }) m
def onMult {α : Type} (m : Mut F α) : Mut (StatFloatAdditive F) α :=
  Mut.part StatFloatAdditive.mult (fun a x => { a with mult := x }) m

/-- `StatFloatAdditive` (float.rs:99-132) -/
def inPlace {O : FloatOps F} (M : AssignOps O) : InPlace (statFloatAdditive O) where
  join o := do
    onAddend (M.add o.addend)
    onMult (M.add o.mult)
    Mut.update (fun a => { a with min := O.max a.min o.min })
    Mut.update (fun a => { a with max := O.min a.max o.max })
  add o := onAddend (M.add o)
  mul o := onMult (M.add o)
  min o := Mut.update (fun a => { a with min := O.max a.min o })
  max o := Mut.update (fun a => { a with max := O.min a.max o })
end StatFloatAdditive

namespace StatMult
variable {F : Type}
def onMult {α : Type} (m : Mut F α) : Mut (StatMult F) α := Mut.part StatMult.mult (fun a x => { a with mult := x }) m

/-- `StatMult` (float.rs:167-195) -/
def inPlace {O : FloatOps F} (M : AssignOps O) : InPlace (statMult O) where
  join o := do
    onMult (M.mul o.mult)
    Mut.update (fun a => { a with min := O.max a.min o.min })
    Mut.update (fun a => { a with max := O.min a.max o.max })
  add o := nomatch o
  mul o := onMult (M.mul o)
  min o := Mut.update (fun a => { a with min := O.max a.min o })
  max o := Mut.update (fun a => { a with max := O.min a.max o })
end StatMult

/-- `StatOperation::write_to` (operations.rs:21-31) in place; `Or` and `Not` write what `StatValue::or`, `not` give,
which are total for the types above (there are no values to call them with). -/
def InPlace.writeTo {V : Type} {D : StatValue V} (I : InPlace D) : StatOp D → Mut V Unit
  | .add x => I.add x
  | .mul x => I.mul x
  | .or x => fun a => Mut.assign (D.or a x) a
  | .not x => fun a => Mut.assign (D.not a x) a
  | .min x => I.min x
  | .max x => I.max x
  | .base x => Mut.update (fun _ => D.fromBase x)

/-- `GlobalStatDefaults::patch` (plugin.rs:153-165): a registered value is changed in place; otherwise the operation
is tried on a local value before anything is inserted -/
def Defaults.patchMut {E : Env} (A : Addr E) (s : StatInst E) (I : InPlace s.sv) (o : StatOp s.sv) :
    Mut (Defaults E) Unit := fun d =>
  match HMap.get (StatInst.eq A) d s with
  | some b =>
    match b.read s.ty with
    | .ok v => ((I.writeTo o v).1, HMap.set (StatInst.eq A) d s (.val s.ty (I.writeTo o v).2))
    | .error e => (.error e, d)
  | none => Mut.assign (Defaults.patch A d s o) d

end BSQ
