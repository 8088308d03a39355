import Verif.Model.Ledger
/-!
# `StatMap` and user code that does whatever it likes

Comparisons and clones of qualifiers, the methods of `QualifierFlag`, joins, operations, closures, iterators and
destructors are user code.  In `Verif.Model.Ledger` the comparisons are those of an `Ord` and do not panic.  Here each
call comes with what user code does during it: comparisons may answer anything, and differently each time, and each
piece of user code may panic.  A panic unwinds to the caller, who catches it and goes on using the map.

A destructor that panics does not show: `Vec::clear`, `Drain` and the drop of a `Vec` go on dropping the other
elements (a second panic aborts), and the value counts as dropped.
-/
namespace BSQ
variable {E : Env} {Q : Type}

/-- what the comparisons of a call answer: of the `n`-th comparison, with a stored qualifier; `none` is a panic -/
abbrev Answers (Q : Type) := Nat → Qualifier Q → Option Ordering

/-- the loop of `slice::binary_search_by` (Rust core), like `bsLoop`, for comparisons that may panic; `f n i` is the
`n`-th comparison, with the element at `i`.  Also returns the number of comparisons made. -/
def bsLoopA (f : Nat → Nat → Option Ordering) : (fuel n base size : Nat) → Option (Nat × Nat)
  | 0, n, base, _ => some (base, n)
  | fuel + 1, n, base, size =>
    if 1 < size then
      let half := size / 2
      let mid := base + half
      match f n mid with
      | none => none
      | some c => bsLoopA f fuel (n + 1) (if c = .gt then base else mid) (size - half)
    else some (base, n)

/-- the comparison of `(s, q)` with `(stat, qualifier)` (stat_map.rs:161): qualifiers are only looked at for equal
stats -/
def Vec.probe {B : Type} (A : Addr E) (m : Vec E Q B) (s : StatInst E) (a : Answers Q) (n i : Nat) : Option Ordering :=
  (m[i]?).elim (some .gt) fun e =>
    match e.stat.cmp A s with
    | .eq => a n e.qual
    | c => some c

/-- `StatMap::binary_search` (stat_map.rs:155-163); `none` if a comparison panics -/
def Vec.searchA {B : Type} (A : Addr E) (m : Vec E Q B) (s : StatInst E) (a : Answers Q) : Option (Except Nat Nat) :=
  if m.length = 0 then some (.error 0)
  else
    match bsLoopA (m.probe A s a) m.length 0 0 m.length with
    | none => none
    | some (base, n) =>
      match m.probe A s a n base with
      | none => none
      | some .eq => some (.ok base)
      | some .lt => some (.error (base + 1))
      | some .gt => some (.error base)

/-- what happens at an entry that a query comes by (stat_map.rs:372-376) -/
inductive Visit where
  /-- `qualifies_as` says no -/
  | skip
  | join
  | joinPanics
  /-- a method of `QualifierFlag` panics -/
  | panics

/-- what user code does at each entry, given how many entries were seen and joined before, and the qualifier -/
abbrev Visits (Q : Type) := (seen joined : Nat) → Qualifier Q → Visit

/-- some order that sorting leaves; a panicking or inconsistent comparison may leave any, but all elements are still
there (documentation of `slice::sort_by`) -/
structure Shuffle (α : Type) where
  apply : List α → List α
  perm : ∀ l, (apply l).Perm l

namespace LMap
variable (A : Addr E)

/-- the end of `insert`, `insert_base` and of `modify` (stat_map.rs:170-178, 191-199, 303-310): a filled buffer goes
where the search says; a buffer in its way is overwritten without being dropped -/
def place (m : LMap E Q) (q : Qualifier Q) (s : StatInst E) (b : Cell) : Except Nat Nat → LMap E Q
  | .ok i => List.modify m i (fun e => { e with buf := b })
  | .error i => m.insertIdx i ⟨s, q, b⟩

/-- `insert`, `insert_base` (stat_map.rs:166-202): the buffer is filled before the search.  A `Buffer` has no
destructor, so what it holds is forgotten when the search panics. -/
def insertA (h : Heap E.U) (m : LMap E Q) (q : Qualifier Q) (s : StatInst E) (a : Answers Q) : Heap E.U × LMap E Q :=
  match h.alloc s.ty with
  | (h1, none) => (h1, m)
  | (h1, some b) =>
    match m.searchA A s a with
    | none => (h1, m)
    | some r => (h1, place m q s b r)

/-- `get`, `get_mut`, `get_evaled` (stat_map.rs:205-224, 236-246) -/
def getA (h : Heap E.U) (m : LMap E Q) (s : StatInst E) (a : Answers Q) : Heap E.U × LMap E Q :=
  match m.searchA A s a with
  | some (.ok i) =>
    match m[i]? with
    | some e => (h.use e.buf s.ty, m)
    | none => (h, m)
  | _ => (h, m)

/-- `modify`, `modify_with` (stat_map.rs:292-341): here the search comes first; when `fails`, the operation or closure
panics -/
def modifyA (h : Heap E.U) (m : LMap E Q) (q : Qualifier Q) (s : StatInst E) (a : Answers Q) (fails : Bool) :
    Heap E.U × LMap E Q :=
  match m.searchA A s a with
  | none => (h, m)
  | some (.ok i) =>
    match m[i]? with
    | some e => (h.use e.buf s.ty, m)
    | none => (h, m)
  | some (.error i) =>
    if fails then ((h.create s.ty).1.drop (h.create s.ty).2 s.ty, m)
    else
      match h.alloc s.ty with
      | (h1, none) => (h1, m)
      | (h1, some b) => (h1, place m q s b (.error i))

/-- `remove` (stat_map.rs:227-233, 45-49) -/
def removeA (h : Heap E.U) (m : LMap E Q) (s : StatInst E) (a : Answers Q) : Heap E.U × LMap E Q :=
  match m.searchA A s a with
  | some (.ok i) =>
    match m[i]? with
    | some e => (h.move e.buf s.ty, m.eraseIdx i)
    | none => (h, m)
  | _ => (h, m)

/-- `iter`, `iter_mut` (stat_map.rs:263-279), of which the caller takes `k` items, or all -/
def iterA (h : Heap E.U) (m : LMap E Q) (s : StatInst E) (k : Option Nat) : Heap E.U × LMap E Q :=
  match m.slice A s with
  | .ok l => ((k.elim l l.take).foldl (fun h e => h.use e.buf s.ty) h, m)
  | .error _ => (h, m)

/-- the loop of `stream_stat` (stat_map.rs:371-376) on the value `x`; the flag tells whether it gets to the end -/
def visitAll (s : StatInst E) (x : Cell) (v : Visits Q) : (seen joined : Nat) → Heap E.U → LMap E Q → Heap E.U × Bool
  | _, _, h, [] => (h, true)
  | n, j, h, e :: l =>
    match v n j e.qual with
    | .skip => visitAll s x v (n + 1) j h l
    | .join => visitAll s x v (n + 1) (j + 1) ((h.use x s.ty).use e.buf s.ty) l
    | .joinPanics => ((h.use x s.ty).use e.buf s.ty, false)
    | .panics => (h, false)

/-- `query_stat`, `eval_stat` (stat_map.rs:343-360) -/
def queryA (h : Heap E.U) (m : LMap E Q) (s : StatInst E) (v : Visits Q) : Heap E.U × LMap E Q :=
  match h.alloc s.ty with
  | (h1, none) => (h1, m)
  | (h1, some x) =>
    match m.slice A s with
    | .ok l => (finish s x (visitAll s x v 0 0 h1 l), m)
    | .error _ => (h1, m)

/-- cloning entries (stat_map.rs:25-33) until the one numbered `failsAt`, where the clone of the value panics (flag
true) or that of the qualifier, which comes before -/
def cloneAllA : Heap E.U → LMap E Q → Option (Nat × Bool) → Heap E.U × LMap E Q × Bool
  | h, [], _ => (h, [], true)
  | h, e :: l, failsAt =>
    match failsAt with
    | some (0, value) => (if value then h.use e.buf e.stat.ty else h, [], false)
    | _ =>
      let h1 := (h.use e.buf e.stat.ty).create e.stat.ty
      let r := cloneAllA h1.1 l (failsAt.map fun x => (x.1 - 1, x.2))
      (r.1, { e with buf := h1.2 } :: r.2.1, r.2.2)

/-- derived `Clone` of `StatMap` (stat_map.rs:64): after a panic `Vec::clone` drops what it cloned so far -/
def cloneA (h : Heap E.U) (m : LMap E Q) (failsAt : Option (Nat × Bool)) : Heap E.U × Option (LMap E Q) :=
  match cloneAllA h m failsAt with
  | (h', l, true) => (h', some l)
  | (h', l, false) => (dropAll h' l, none)

/-- `from_iter` (stat_map.rs:101-117).  When `sortFails`, sorting panics and the vector is dropped. -/
def fromIterA (h : Heap E.U) (T : E.S) (items : List (Qualifier Q × Nat)) (fails sortFails : Bool)
    (σ : Shuffle (Entry E Q Cell)) : Heap E.U × Option (LMap E Q) :=
  match entries T fails h items with
  | (h', some l) => if sortFails then (dropAll h' (σ.apply l), none) else (h', some (σ.apply l))
  | (h', none) => (h', none)

/-- `extend` (stat_map.rs:119-132).  When `fails`, the iterator panics after the items: they stay, unsorted.  Whether
sorting panics makes no difference to what is there. -/
def extendA (h : Heap E.U) (m : LMap E Q) (T : E.S) (items : List (Qualifier Q × Nat)) (fails : Bool)
    (σ : Shuffle (Entry E Q Cell)) : Heap E.U × LMap E Q :=
  match entries T false h items with
  | (h', some l) => (h', if fails then m ++ l else σ.apply (m ++ l))
  | (h', none) => (h', m)

end LMap

/-- one step of a program, with what user code does during it; maps are numbered as in `LOp` -/
inductive XOp (E : Env) (Q : Type) where
  | new
  | insert (i : Nat) (q : Qualifier Q) (s : StatInst E) (a : Answers Q)
  | get (i : Nat) (s : StatInst E) (a : Answers Q)
  | modify (i : Nat) (q : Qualifier Q) (s : StatInst E) (a : Answers Q) (fails : Bool)
  | remove (i : Nat) (s : StatInst E) (a : Answers Q)
  | iter (i : Nat) (s : StatInst E) (k : Option Nat)
  | removeAll (i : Nat) (s : StatInst E)
  | clear (i : Nat)
  | query (i : Nat) (s : StatInst E) (v : Visits Q)
  | clone (i : Nat) (failsAt : Option (Nat × Bool))
  | fromIter (T : E.S) (items : List (Qualifier Q × Nat)) (fails sortFails : Bool) (σ : Shuffle (Entry E Q Cell))
  | extend (i : Nat) (T : E.S) (items : List (Qualifier Q × Nat)) (fails : Bool) (σ : Shuffle (Entry E Q Cell))
  | dropMap (i : Nat)

namespace LState
variable (A : Addr E)

def hostile (st : LState E Q) : XOp E Q → LState E Q
  | .new => ⟨st.heap, st.maps ++ [[]]⟩
  | .insert i q s a => st.on i (fun h m => LMap.insertA A h m q s a)
  | .get i s a => st.on i (fun h m => LMap.getA A h m s a)
  | .modify i q s a fails => st.on i (fun h m => LMap.modifyA A h m q s a fails)
  | .remove i s a => st.on i (fun h m => LMap.removeA A h m s a)
  | .iter i s k => st.on i (fun h m => LMap.iterA A h m s k)
  | .removeAll i s => st.on i (fun h m => LMap.removeAll A h m s)
  | .clear i => st.on i LMap.clear
  | .query i s v => st.on i (fun h m => LMap.queryA A h m s v)
  | .clone i failsAt =>
    match st.maps[i]? with
    | some m => st.push (LMap.cloneA st.heap m failsAt)
    | none => st
  | .fromIter T items fails sortFails σ => st.push (LMap.fromIterA st.heap T items fails sortFails σ)
  | .extend i T items fails σ => st.on i (fun h m => LMap.extendA h m T items fails σ)
  | .dropMap i =>
    match st.maps[i]? with
    | some m => ⟨LMap.dropAll st.heap m, st.maps.eraseIdx i⟩
    | none => st

def runHostile (os : List (XOp E Q)) : LState E Q := os.foldl (hostile A) new

end LState
end BSQ
