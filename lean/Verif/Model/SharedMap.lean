import Verif.Model.SharedTables
import Verif.Model.StatMap
/-!
# `StatMap` when vtables may share an address  (src/stat_map.rs)

A `StatMap` orders and compares its stats by the addresses of their vtables (stat.rs:137-155).  Here, as in
`Verif.Model.SharedTables`, the addresses are arbitrary: each definition is the one of `Model/StatMap.lean` with the
address function of an `Addr` replaced by any function `loc`.  They agree where both make sense (`C126_addr`).

The stat kept in an entry is the one given to the call that created the entry; `insert` and `modify` leave it alone
when they find an entry (stat_map.rs:170-172, 188-193, 298-300), so it may belong to another type with the same
address.  Its vtable drops the value.
-/
namespace BSQ
namespace Shared
variable {E : Env} {Q B : Type} [Ord Q] (loc : E.S → Nat)

/-- the tuple comparison of `binary_search` (stat_map.rs:161) and fn `sort` (stat_map.rs:97-99) -/
def keyCmp (a : Entry E Q B) (s : StatInst E) (q : Qualifier Q) : Ordering :=
  (a.stat.cmpAt loc s).then (a.qual.cmp q)

/-- `StatMap::binary_search` (stat_map.rs:155-163) -/
def search (m : Vec E Q B) (q : Qualifier Q) (s : StatInst E) : Except Nat Nat :=
  binarySearchBy m (fun e => keyCmp loc e s q)

/-- putting a buffer under a key: `insert`, `insert_base`, `modify` (stat_map.rs:166-202, 301-312) -/
def put (m : Vec E Q B) (q : Qualifier Q) (s : StatInst E) (b : B) : Vec E Q B :=
  match search loc m q s with
  | .ok i => List.modify m i (fun e => { e with buf := b })
  | .error i => m.insertIdx i ⟨s, q, b⟩

/-- the buffer found by `get`, `get_mut`, `get_evaled` (stat_map.rs:205-224, 236-246) -/
def find (m : Vec E Q B) (q : Qualifier Q) (s : StatInst E) : Option B :=
  match search loc m q s with
  | .ok i => (m[i]?).map (·.buf)
  | .error _ => none

/-- writing through the reference of `get_mut` (stat_map.rs:214-224) -/
def update (m : Vec E Q B) (q : Qualifier Q) (s : StatInst E) (b : B) : Vec E Q B :=
  match search loc m q s with
  | .ok i => List.modify m i (fun e => { e with buf := b })
  | .error _ => m

/-- `StatMap::remove` (stat_map.rs:227-233) -/
def pull (m : Vec E Q B) (q : Qualifier Q) (s : StatInst E) : Vec E Q B × Option B :=
  match search loc m q s with
  | .ok i => (m.eraseIdx i, (m[i]?).map (·.buf))
  | .error _ => (m, none)

omit [Ord Q] in
/-- bounds of the range of a stat (stat_map.rs:250-251, 257-258, 284-285) -/
def range (m : Vec E Q B) (s : StatInst E) : Nat × Nat :=
  (partitionPoint m (fun x => x.stat.cmpAt loc s == .lt), partitionPoint m (fun x => x.stat.cmpAt loc s != .gt))

/-- `StatMap::slice` (stat_map.rs:249-253) -/
def slice (m : Vec E Q B) (s : StatInst E) : Res (List (Entry E Q B)) :=
  let r := range loc m s
  if r.2 < r.1 ∨ m.length < r.2 then .error .panic else .ok ((m.take r.2).drop r.1)

/-- `StatMap::slice_mut` with a function applied to each buffer of the range (stat_map.rs:256-260, 271-279) -/
def sliceMut (m : Vec E Q B) (s : StatInst E) (f : B → Res B) : Res (Vec E Q B) := do
  let r := range loc m s
  if r.2 < r.1 ∨ m.length < r.2 then .error .panic
  else do
    let mid ← ((m.take r.2).drop r.1).mapM (fun e => do
      let b ← f e.buf
      .ok { e with buf := b })
    .ok (m.take r.1 ++ mid ++ m.drop r.2)

/-- `StatMap::remove_all` (stat_map.rs:282-287): the rest and the drained entries -/
def drain (m : Vec E Q B) (s : StatInst E) : Res (Vec E Q B × List (Entry E Q B)) :=
  let r := range loc m s
  if r.2 < r.1 ∨ m.length < r.2 then .error .panic
  else .ok (m.take r.1 ++ m.drop r.2, (m.take r.2).drop r.1)

/-- `StatMap::insert` (stat_map.rs:166-180) -/
def insert (m : StatMap E Q) (q : Qualifier Q) (s : StatInst E) (v : s.Val) : Res (StatMap E Q) := do
  let b ← Buf.from_ s.ty v
  .ok (put loc m q s b)

/-- `StatMap::insert_base` (stat_map.rs:183-202) -/
def insertBase (m : StatMap E Q) (q : Qualifier Q) (s : StatInst E) (base : s.sv.BaseT) :
    Res (StatMap E Q) := do
  let b ← Buf.from_ s.ty (s.sv.fromBase base)
  .ok (put loc m q s b)

/-- `StatMap::get` (stat_map.rs:205-211) -/
def get (m : StatMap E Q) (q : Qualifier Q) (s : StatInst E) : Res (Option s.Val) :=
  StatMap.readAs s (find loc m q s)

/-- `StatMap::get_mut` followed by running `f` on the reference (stat_map.rs:214-224) -/
def getMut (m : StatMap E Q) (q : Qualifier Q) (s : StatInst E) (f : s.Val → Res s.Val) :
    Res (StatMap E Q) := do
  let o ← get loc m q s
  match o with
  | none => .ok m
  | some v => do
    let v' ← f v
    .ok (update loc m q s (.val s.ty v'))

/-- `StatMap::remove` (stat_map.rs:227-233) -/
def remove (m : StatMap E Q) (q : Qualifier Q) (s : StatInst E) : Res (StatMap E Q × Option s.Val) := do
  let r := pull loc m q s
  let v ← StatMap.readAs s r.2
  .ok (r.1, v)

/-- `StatMap::iter` (stat_map.rs:263-268) -/
def iter (m : StatMap E Q) (s : StatInst E) : Res (List (Qualifier Q × s.Val)) := do
  let l ← slice loc m s
  l.mapM (fun e => do
    let v ← e.buf.read s.ty
    .ok (e.qual, v))

/-- `StatMap::iter_mut` with `f` run on each reference (stat_map.rs:271-279) -/
def iterMut (m : StatMap E Q) (s : StatInst E) (f : s.Val → Res s.Val) : Res (StatMap E Q) :=
  sliceMut loc m s (fun b => do
    let v ← b.read s.ty
    let v' ← f v
    .ok (.val s.ty v'))

/-- `StatMap::remove_all` (stat_map.rs:282-287) -/
def removeAll (m : StatMap E Q) (s : StatInst E) : Res (StatMap E Q) := do
  let r ← drain loc m s
  StatMap.dropAll r.2
  .ok r.1

/-- `StatMap::modify` (stat_map.rs:292-313) -/
def modify (m : StatMap E Q) (q : Qualifier Q) (s : StatInst E) (o : StatOp s.sv) : Res (StatMap E Q) := do
  let cur ← get loc m q s
  match cur with
  | some v => do
    let v' ← o.writeTo v
    .ok (update loc m q s (.val s.ty v'))
  | none => do
    let v ← o.intoStat
    let b ← Buf.from_ s.ty v
    .ok (put loc m q s b)

/-- `StatMap::modify_with` (stat_map.rs:318-341) -/
def modifyWith (m : StatMap E Q) (q : Qualifier Q) (s : StatInst E) (f : s.Val → Res s.Val) :
    Res (StatMap E Q) := do
  let cur ← get loc m q s
  match cur with
  | some v => do
    let v' ← f v
    .ok (update loc m q s (.val s.ty v'))
  | none => do
    let v ← f s.sv.default
    let b ← Buf.from_ s.ty v
    .ok (put loc m q s b)

/-- `StatStream::stream_stat for StatMap` (stat_map.rs:364-377) -/
def streamStat [QualifierFlag Q] (m : StatMap E Q) (query : QualifierQuery Q) (p : Pair E) :
    Res (Pair E) := do
  let l ← slice loc m p.stat
  let b ← StatMap.joinEntries p.stat.vt query l p.value
  .ok { p with value := b }

/-- `StatMap::query_stat` (stat_map.rs:343-352) -/
def queryStat [QualifierFlag Q] (m : StatMap E Q) (query : QualifierQuery Q) (s : StatInst E) :
    Res s.Val := do
  let p ← Pair.newDefault s
  let p' ← streamStat loc m query p
  p'.value.read s.ty

/-- `inner.sort_by(sort)` (stat_map.rs:97-99, 114, 130) -/
def sorted (m : Vec E Q B) : Vec E Q B := m.mergeSort (fun a b => keyCmp loc a b.stat b.qual != .gt)

/-- `FromIterator::from_iter` (stat_map.rs:101-117) -/
def fromIter (T : E.S) (items : List (Qualifier Q × Nat × E.El (E.valTy T))) : Res (StatMap E Q) := do
  let l ← StatMap.entries T items
  .ok (sorted loc l)

/-- `Extend::extend` (stat_map.rs:119-132) -/
def extend (m : StatMap E Q) (T : E.S) (items : List (Qualifier Q × Nat × E.El (E.valTy T))) :
    Res (StatMap E Q) := do
  let l ← StatMap.entries T items
  .ok (sorted loc (m ++ l))

end Shared
end BSQ
