import Verif.Model.StatMap
/-!
# `StatMap` over other slice algorithms

`Model/StatMap.lean` follows the binary search of one version of the Rust library.  Here are the methods of
`StatMap` that search or sort once more, with the algorithms of the library left open.
-/
namespace BSQ
variable {E : Env} {Q : Type}

/-- the slice algorithms that stat_map.rs takes from the standard library -/
structure SliceLib where
  /-- `slice::binary_search_by` (stat_map.rs:156-162) -/
  search : {α : Type} → List α → (α → Ordering) → Except Nat Nat
  /-- `slice::partition_point` (stat_map.rs:250-251, 257-258, 284-285) -/
  partition : {α : Type} → List α → (α → Bool) → Nat
  /-- `slice::sort_by` (stat_map.rs:114, 130) -/
  sort : {α : Type} → List α → (α → α → Ordering) → List α

/-- the algorithms used in the rest of the model -/
def SliceLib.current : SliceLib where
  search := binarySearchBy
  partition := partitionPoint
  sort l c := l.mergeSort (fun a b => c a b != .gt)

namespace LibMap
variable (S : SliceLib) [Ord Q] (A : Addr E)

section vec
variable {B : Type}

/-- `StatMap::binary_search` (stat_map.rs:155-163) -/
def search (m : Vec E Q B) (q : Qualifier Q) (s : StatInst E) : Except Nat Nat :=
  S.search m (fun e => e.keyCmp A s q)

/-- put a buffer under a key (stat_map.rs:166-202, 301-312) -/
def put (m : Vec E Q B) (q : Qualifier Q) (s : StatInst E) (b : B) : Vec E Q B :=
  match search S A m q s with
  | .ok i => m.modify i (fun e => { e with buf := b })
  | .error i => m.insertIdx i ⟨s, q, b⟩

/-- the buffer found by `get`, `get_mut`, `get_evaled` (stat_map.rs:205-224, 236-246) -/
def find (m : Vec E Q B) (q : Qualifier Q) (s : StatInst E) : Option B :=
  match search S A m q s with
  | .ok i => (m[i]?).map (·.buf)
  | .error _ => none

/-- overwrite the buffer found by `get_mut` (stat_map.rs:214-224) -/
def update (m : Vec E Q B) (q : Qualifier Q) (s : StatInst E) (b : B) : Vec E Q B :=
  match search S A m q s with
  | .ok i => m.modify i (fun e => { e with buf := b })
  | .error _ => m

/-- `StatMap::remove` (stat_map.rs:227-233) -/
def pull (m : Vec E Q B) (q : Qualifier Q) (s : StatInst E) : Vec E Q B × Option B :=
  match search S A m q s with
  | .ok i => (m.eraseIdx i, (m[i]?).map (·.buf))
  | .error _ => (m, none)

/-- bounds of the range of a stat (stat_map.rs:250-251, 257-258, 284-285) -/
def range (m : Vec E Q B) (s : StatInst E) : Nat × Nat :=
  (S.partition m (fun x => x.stat.cmp A s == .lt), S.partition m (fun x => x.stat.cmp A s != .gt))

/-- `StatMap::slice` (stat_map.rs:249-253) -/
def slice (m : Vec E Q B) (s : StatInst E) : Res (List (Entry E Q B)) :=
  let r := range S A m s
  if r.2 < r.1 ∨ m.length < r.2 then .error .panic else .ok ((m.take r.2).drop r.1)

/-- `StatMap::slice_mut` (stat_map.rs:256-260, 271-279) -/
def sliceMut (m : Vec E Q B) (s : StatInst E) (f : B → Res B) : Res (Vec E Q B) := do
  let r := range S A m s
  if r.2 < r.1 ∨ m.length < r.2 then .error .panic
  else do
    let mid ← ((m.take r.2).drop r.1).mapM (fun e => do
      let b ← f e.buf
      .ok { e with buf := b })
    .ok (m.take r.1 ++ mid ++ m.drop r.2)

end vec

/-- `StatMap::insert` (stat_map.rs:166-180) -/
def insert (m : StatMap E Q) (q : Qualifier Q) (s : StatInst E) (v : s.Val) : Res (StatMap E Q) := do
  let b ← Buf.from_ s.ty v
  .ok (put S A m q s b)

/-- `StatMap::get` (stat_map.rs:205-211) -/
def get (m : StatMap E Q) (q : Qualifier Q) (s : StatInst E) : Res (Option s.Val) :=
  StatMap.readAs s (find S A m q s)

/-- `StatMap::get_mut` followed by running `f` on the reference (stat_map.rs:214-224) -/
def getMut (m : StatMap E Q) (q : Qualifier Q) (s : StatInst E) (f : s.Val → Res s.Val) : Res (StatMap E Q) := do
  let o ← get S A m q s
  match o with
  | none => .ok m
  | some v => do
    let v' ← f v
    .ok (update S A m q s (.val s.ty v'))

/-- `StatMap::remove` (stat_map.rs:227-233) -/
def remove (m : StatMap E Q) (q : Qualifier Q) (s : StatInst E) : Res (StatMap E Q × Option s.Val) := do
  let r := pull S A m q s
  let v ← StatMap.readAs s r.2
  .ok (r.1, v)

/-- `StatMap::get_evaled` (stat_map.rs:236-246) -/
def getEvaled (m : StatMap E Q) (q : Qualifier Q) (s : StatInst E) : Res (Option s.sv.Out) := do
  let o ← get S A m q s
  StatMap.evalOpt s.sv o

/-- `StatMap::iter` (stat_map.rs:263-268) -/
def iter (m : StatMap E Q) (s : StatInst E) : Res (List (Qualifier Q × s.Val)) := do
  let l ← slice S A m s
  l.mapM (fun e => do
    let v ← e.buf.read s.ty
    .ok (e.qual, v))

/-- `StatMap::iter_mut` with `f` run on each reference (stat_map.rs:271-279) -/
def iterMut (m : StatMap E Q) (s : StatInst E) (f : s.Val → Res s.Val) : Res (StatMap E Q) :=
  sliceMut S A m s (fun b => do
    let v ← b.read s.ty
    let v' ← f v
    .ok (.val s.ty v'))

/-- `StatMap::remove_all` (stat_map.rs:282-287) -/
def removeAll (m : StatMap E Q) (s : StatInst E) : Res (StatMap E Q) := do
  let r := range S A m s
  if r.2 < r.1 ∨ m.length < r.2 then .error .panic
  else do
    StatMap.dropAll ((m.take r.2).drop r.1)
    .ok (m.take r.1 ++ m.drop r.2)

/-- `StatMap::modify_with` (stat_map.rs:318-341); also `StatMap::modify` (stat_map.rs:292-313) with the operation as `f` -/
def modifyWith (m : StatMap E Q) (q : Qualifier Q) (s : StatInst E) (f : s.Val → Res s.Val) :
    Res (StatMap E Q) := do
  let cur ← get S A m q s
  match cur with
  | some v => do
    let v' ← f v
    .ok (update S A m q s (.val s.ty v'))
  | none => do
    let v ← f s.sv.default
    let b ← Buf.from_ s.ty v
    .ok (put S A m q s b)

/-- `Extend::extend` (stat_map.rs:119-132); `from_iter` (stat_map.rs:101-117) extends the empty map -/
def extend (m : StatMap E Q) (T : E.S) (items : List (Qualifier Q × Nat × E.El (E.valTy T))) :
    Res (StatMap E Q) := do
  let l ← StatMap.entries T items
  .ok (S.sort (m ++ l) (Entry.sort A))

/-- `StatMap::query_stat` (stat_map.rs:343-352, 364-377) -/
def queryStat [QualifierFlag Q] (m : StatMap E Q) (query : QualifierQuery Q) (s : StatInst E) : Res s.Val := do
  let p ← Pair.newDefault s
  let l ← slice S A m p.stat
  let b ← StatMap.joinEntries p.stat.vt query l p.value
  b.read s.ty

/-- `StatMap::eval_stat` (stat_map.rs:354-360) -/
def evalStat [QualifierFlag Q] (m : StatMap E Q) (query : QualifierQuery Q) (s : StatInst E) : Res s.sv.Out := do
  let v ← queryStat S A m query s
  s.sv.eval v

end LibMap
end BSQ
