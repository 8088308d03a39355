import Verif.Model.Env
import Verif.Model.Qualifier
/-!
# `StatMap`  (src/stat_map.rs)

The vector algorithms are written for an arbitrary buffer type `B` and also return the buffers that leave
the vector, so that the typed map below and the ownership ledger (`Verif.Model.Ledger`) share them.
-/
namespace BSQ

/-! ### slices of the standard library -/

/-- the loop of `slice::binary_search_by` (Rust core): `size` halves until 1; `fuel` bounds the number of
iterations and `size` is enough. -/
def bsLoop (f : Nat → Ordering) : (fuel base size : Nat) → Nat
  | 0, base, _ => base
  | fuel + 1, base, size =>
    if 1 < size then
      let half := size / 2
      let mid := base + half
      bsLoop f fuel (if f mid = .gt then base else mid) (size - half)
    else base

/-- `slice::binary_search_by` (Rust core).  Every probed index is in bounds (`bsLoop_lt`). -/
def binarySearchBy {α : Type} (l : List α) (f : α → Ordering) : Except Nat Nat :=
  let g := fun i => (l[i]?).elim .gt f
  if l.length = 0 then .error 0
  else
    let base := bsLoop g l.length 0 l.length
    match g base with
    | .eq => .ok base
    | .lt => .error (base + 1)
    | .gt => .error base

/-- `slice::partition_point` (Rust core): a binary search that never reports equality -/
def partitionPoint {α : Type} (l : List α) (pred : α → Bool) : Nat :=
  match binarySearchBy l (fun x => if pred x then .lt else .gt) with
  | .ok i => i
  | .error i => i

variable {E : Env} {Q : Type}

/-- `derive(Ord)` of `Qualifier` (qualifier.rs:75-84): `any_of`, then `all_of` -/
def Qualifier.cmp [Ord Q] (a b : Qualifier Q) : Ordering :=
  (compare a.anyOf b.anyOf).then (compare a.allOf b.allOf)

/-- `StatMapEntry` (stat_map.rs:19-23) -/
structure Entry (E : Env) (Q B : Type) where
  stat : StatInst E
  qual : Qualifier Q
  buf : B

namespace Entry
variable {B : Type}

/-- comparison of `(stat, qualifier)` keys: `sort` (stat_map.rs:97-99) and the tuple comparison in
`binary_search` (stat_map.rs:161) -/
def keyCmp [Ord Q] (A : Addr E) (a : Entry E Q B) (s : StatInst E) (q : Qualifier Q) : Ordering :=
  (a.stat.cmp A s).then (a.qual.cmp q)

/-- fn `sort` (stat_map.rs:97-99) -/
def sort [Ord Q] (A : Addr E) (a b : Entry E Q B) : Ordering := a.keyCmp A b.stat b.qual

end Entry

/-- `StatMap`'s only field (stat_map.rs:67-70) -/
abbrev Vec (E : Env) (Q B : Type) := List (Entry E Q B)

namespace Vec
variable {B : Type} [Ord Q] (A : Addr E)

/-- `StatMap::binary_search` (stat_map.rs:155-163) -/
def search (m : Vec E Q B) (q : Qualifier Q) (s : StatInst E) : Except Nat Nat :=
  binarySearchBy m (fun e => e.keyCmp A s q)

/-- the shared shape of `insert`, `insert_base` and `modify`'s insertion (stat_map.rs:166-202, 301-312): put a
buffer under a key.  The second component is the buffer that was overwritten; the code does not drop it. -/
def put (m : Vec E Q B) (q : Qualifier Q) (s : StatInst E) (b : B) : Vec E Q B × Option B :=
  match m.search A q s with
  | .ok i => (m.modify i (fun e => { e with buf := b }), (m[i]?).map (·.buf))
  | .error i => (m.insertIdx i ⟨s, q, b⟩, none)

/-- the buffer found by `get`, `get_mut`, `get_evaled` (stat_map.rs:205-224, 236-246) -/
def find (m : Vec E Q B) (q : Qualifier Q) (s : StatInst E) : Option B :=
  match m.search A q s with
  | .ok i => (m[i]?).map (·.buf)
  | .error _ => none

/-- overwrite the buffer found by `get_mut`, in place; nothing happens when there is none -/
def update (m : Vec E Q B) (q : Qualifier Q) (s : StatInst E) (b : B) : Vec E Q B :=
  match m.search A q s with
  | .ok i => m.modify i (fun e => { e with buf := b })
  | .error _ => m

/-- `StatMap::remove` (stat_map.rs:227-233): the remaining vector and the removed buffer -/
def pull (m : Vec E Q B) (q : Qualifier Q) (s : StatInst E) : Vec E Q B × Option B :=
  match m.search A q s with
  | .ok i => (m.eraseIdx i, (m[i]?).map (·.buf))
  | .error _ => (m, none)

/-- bounds of the range of a stat (stat_map.rs:250-251, 257-258, 284-285) -/
def range (m : Vec E Q B) (s : StatInst E) : Nat × Nat :=
  (partitionPoint m (fun x => x.stat.cmp A s == .lt), partitionPoint m (fun x => x.stat.cmp A s != .gt))

/-- `StatMap::slice` (stat_map.rs:249-253); `&inner[fst..snd]` panics when `fst > snd` -/
def slice (m : Vec E Q B) (s : StatInst E) : Res (List (Entry E Q B)) :=
  let r := m.range A s
  if r.2 < r.1 ∨ m.length < r.2 then .error .panic else .ok ((m.take r.2).drop r.1)

/-- `StatMap::slice_mut` with a function applied to each buffer of the range (stat_map.rs:256-260, 271-279) -/
def sliceMut (m : Vec E Q B) (s : StatInst E) (f : B → Res B) : Res (Vec E Q B) := do
  let r := m.range A s
  if r.2 < r.1 ∨ m.length < r.2 then .error .panic
  else do
    let mid ← ((m.take r.2).drop r.1).mapM (fun e => do
      let b ← f e.buf
      .ok { e with buf := b })
    .ok (m.take r.1 ++ mid ++ m.drop r.2)

/-- `StatMap::remove_all` (stat_map.rs:282-287): the rest, and the drained buffers (dropped);
`drain(fst..snd)` panics when `fst > snd` -/
def removeAll (m : Vec E Q B) (s : StatInst E) : Res (Vec E Q B × List (Entry E Q B)) :=
  let r := m.range A s
  if r.2 < r.1 ∨ m.length < r.2 then .error .panic
  else .ok (m.take r.1 ++ m.drop r.2, (m.take r.2).drop r.1)

/-- `inner.sort_by(sort)` (stat_map.rs:114, 130): Rust's stable sort -/
def sorted (m : Vec E Q B) : Vec E Q B := m.mergeSort (fun a b => a.sort A b != .gt)

end Vec

/-! ### the typed map -/

/-- `StatMap<Q>` (stat_map.rs:67-70) -/
abbrev StatMap (E : Env) (Q : Type) := Vec E Q (Buf E)

namespace StatMap
variable [Ord Q] (A : Addr E)

/-- `StatMap::new`, `Default` (stat_map.rs:91-95, 135-137) -/
def new : StatMap E Q := []

/-- `StatMap::is_empty` (stat_map.rs:145-147) -/
def isEmpty (m : StatMap E Q) : Bool := List.isEmpty m
/-- `StatMap::len` (stat_map.rs:150-152) -/
def len (m : StatMap E Q) : Nat := List.length m

/-- `StatMap::insert` (stat_map.rs:166-180) -/
def insert (m : StatMap E Q) (q : Qualifier Q) (s : StatInst E) (v : s.Val) : Res (StatMap E Q) := do
  let b ← Buf.from_ s.ty v
  .ok (m.put A q s b).1

/-- `StatMap::insert_base` (stat_map.rs:183-202) -/
def insertBase (m : StatMap E Q) (q : Qualifier Q) (s : StatInst E) (base : s.sv.BaseT) :
    Res (StatMap E Q) := do
  let b ← Buf.from_ s.ty (s.sv.fromBase base)
  .ok (m.put A q s b).1

/-- read a found buffer at the stat's value type -/
def readAs (s : StatInst E) : Option (Buf E) → Res (Option s.Val)
  | none => .ok none
  | some b => do
    let v ← b.read s.ty
    .ok (some v)

/-- `StatMap::get` (stat_map.rs:205-211), and the value seen through `get_mut` (stat_map.rs:214-224) -/
def get (m : StatMap E Q) (q : Qualifier Q) (s : StatInst E) : Res (Option s.Val) :=
  readAs s (m.find A q s)

/-- `StatMap::get_mut` followed by running `f` on the reference (stat_map.rs:214-224) -/
def getMut (m : StatMap E Q) (q : Qualifier Q) (s : StatInst E) (f : s.Val → Res s.Val) :
    Res (StatMap E Q) := do
  let o ← get A m q s
  match o with
  | none => .ok m
  | some v => do
    let v' ← f v
    .ok (m.update A q s (.val s.ty v'))

/-- `StatMap::remove` (stat_map.rs:227-233) -/
def remove (m : StatMap E Q) (q : Qualifier Q) (s : StatInst E) : Res (StatMap E Q × Option s.Val) := do
  let r := Vec.pull A m q s
  let v ← readAs s r.2
  .ok (r.1, v)

/-- evaluate when present -/
def evalOpt {V : Type} (D : StatValue V) : Option V → Res (Option D.Out)
  | none => .ok none
  | some v => do
    let o ← D.eval v
    .ok (some o)

/-- `StatMap::get_evaled` (stat_map.rs:236-246) -/
def getEvaled (m : StatMap E Q) (q : Qualifier Q) (s : StatInst E) : Res (Option s.sv.Out) := do
  let o ← get A m q s
  evalOpt s.sv o

/-- `StatMap::iter` (stat_map.rs:263-268) -/
def iter (m : StatMap E Q) (s : StatInst E) : Res (List (Qualifier Q × s.Val)) := do
  let l ← m.slice A s
  l.mapM (fun e => do
    let v ← e.buf.read s.ty
    .ok (e.qual, v))

/-- `StatMap::iter_mut` with `f` run on each reference (stat_map.rs:271-279); callers that do
something else with the iterator are in `Verif.Model.IterMut`. -/
def iterMut (m : StatMap E Q) (s : StatInst E) (f : s.Val → Res s.Val) : Res (StatMap E Q) :=
  m.sliceMut A s (fun b => do
    let v ← b.read s.ty
    let v' ← f v
    .ok (.val s.ty v'))

/-- run the `Drop` glue of entries (stat_map.rs:35-39) -/
def dropAll : List (Entry E Q (Buf E)) → Res Unit
  | [] => .ok ()
  | e :: l => do
    vtDrop e.stat.vt e.buf
    dropAll l

/-- `StatMap::remove_all` (stat_map.rs:282-287) -/
def removeAll (m : StatMap E Q) (s : StatInst E) : Res (StatMap E Q) := do
  let r ← Vec.removeAll A m s
  dropAll r.2
  .ok r.1

/-- `StatMap::clear` (stat_map.rs:140-142) -/
def clear (m : StatMap E Q) : Res (StatMap E Q) := do
  dropAll m
  .ok []

/-- `StatMap::modify` (stat_map.rs:292-313) -/
def modify (m : StatMap E Q) (q : Qualifier Q) (s : StatInst E) (o : StatOp s.sv) : Res (StatMap E Q) := do
  let cur ← get A m q s
  match cur with
  | some v => do
    let v' ← o.writeTo v
    .ok (m.update A q s (.val s.ty v'))
  | none => do
    let v ← o.intoStat
    let b ← Buf.from_ s.ty v
    .ok (m.put A q s b).1

/-- `StatMap::modify_with` (stat_map.rs:318-341) -/
def modifyWith (m : StatMap E Q) (q : Qualifier Q) (s : StatInst E) (f : s.Val → Res s.Val) :
    Res (StatMap E Q) := do
  let cur ← get A m q s
  match cur with
  | some v => do
    let v' ← f v
    .ok (m.update A q s (.val s.ty v'))
  | none => do
    let v ← f s.sv.default
    let b ← Buf.from_ s.ty v
    .ok (m.put A q s b).1

/-- the entries built by `FromIterator`/`Extend` (stat_map.rs:103-113, 121-129); all items share one stat
type, hence the common `T` -/
def entries (T : E.S) : List (Qualifier Q × Nat × E.El (E.valTy T)) → Res (List (Entry E Q (Buf E)))
  | [] => .ok []
  | (q, i, v) :: l => do
    let b ← Buf.from_ (E.valTy T) v
    let rest ← entries T l
    .ok (⟨⟨T, i⟩, q, b⟩ :: rest)

/-- `FromIterator::from_iter` (stat_map.rs:101-117) -/
def fromIter (T : E.S) (items : List (Qualifier Q × Nat × E.El (E.valTy T))) : Res (StatMap E Q) := do
  let l ← entries T items
  .ok (Vec.sorted A l)

/-- `Extend::extend` (stat_map.rs:119-132) -/
def extend (m : StatMap E Q) (T : E.S) (items : List (Qualifier Q × Nat × E.El (E.valTy T))) :
    Res (StatMap E Q) := do
  let l ← entries T items
  .ok (Vec.sorted A (m ++ l))

/-- the loop of `StatStream::stream_stat for StatMap` (stat_map.rs:371-376) -/
def joinEntries [QualifierFlag Q] (T : E.S) (query : QualifierQuery Q) :
    List (Entry E Q (Buf E)) → Buf E → Res (Buf E)
  | [], b => .ok b
  | e :: l, b =>
    if e.qual.qualifiesAs query then do
      let b' ← vtJoin T b e.buf
      joinEntries T query l b'
    else joinEntries T query l b

/-- `StatStream::stream_stat for StatMap` (stat_map.rs:364-377); entity and querier are unused -/
def streamStat [QualifierFlag Q] (m : StatMap E Q) (query : QualifierQuery Q) (p : Pair E) :
    Res (Pair E) := do
  let l ← m.slice A p.stat
  let b ← joinEntries p.stat.vt query l p.value
  .ok { p with value := b }

/-- `StatMap::query_stat` (stat_map.rs:343-352) -/
def queryStat [QualifierFlag Q] (m : StatMap E Q) (query : QualifierQuery Q) (s : StatInst E) :
    Res s.Val := do
  let p ← Pair.newDefault s
  let p' ← streamStat A m query p
  p'.value.read s.ty

/-- `StatMap::eval_stat` (stat_map.rs:354-360) -/
def evalStat [QualifierFlag Q] (m : StatMap E Q) (query : QualifierQuery Q) (s : StatInst E) :
    Res s.sv.Out := do
  let v ← queryStat A m query s
  s.sv.eval v

/-- `Clone for StatMapEntry` / derived `Clone for StatMap` (stat_map.rs:25-33, 64) -/
def clone : StatMap E Q → Res (StatMap E Q)
  | [] => .ok []
  | e :: l => do
    let b ← vtClone e.stat.vt e.buf
    let rest ← clone l
    .ok ({ e with buf := b } :: rest)

end StatMap
end BSQ
