import Verif.Model.StatMap
import Verif.Model.Plugin
/-!
# Who owns the values in buffers

A `Buffer` (buffer.rs:32-33) is plain bytes: copying it does not copy the value, dropping it does not drop the
value.  Here each value that comes into being gets a number of its own (a `Cell`), buffers hold numbers, and the
code is rerun recording what it does to each value.  Accesses also record the type they are made at.

The vector and hash map algorithms are those of `Verif.Model.StatMap` and `Verif.Model.HMap`.  A panic of user
code or of `validate` unwinds: locals are dropped, and the caller may catch it and carry on.  `Buffer` and
`StatValuePair` have no drop glue, so what they hold is then leaked.  Destructors of user types do not panic here.
Values are written through `&mut` in place: what user code drops or creates that way is its own business.
-/
namespace BSQ

/-- the identity of a value -/
abbrev Cell := Nat

/-- what happens to a value, and the type it is accessed at -/
inductive Mem (U : Type) where
  | create (x : Cell) (u : U)
  /-- access through a reference -/
  | use (x : Cell) (u : U)
  /-- ownership goes to the caller -/
  | move (x : Cell) (u : U)
  | drop (x : Cell) (u : U)
  deriving DecidableEq, Repr

/-- the next unused number and what has happened so far, oldest first -/
structure Heap (U : Type) where
  next : Cell
  log : List (Mem U)

namespace Heap
variable {U : Type}

def new : Heap U := ⟨0, []⟩
def create (h : Heap U) (u : U) : Heap U × Cell := (⟨h.next + 1, h.log ++ [.create h.next u]⟩, h.next)
def use (h : Heap U) (x : Cell) (u : U) : Heap U := ⟨h.next, h.log ++ [.use x u]⟩
def move (h : Heap U) (x : Cell) (u : U) : Heap U := ⟨h.next, h.log ++ [.move x u]⟩
def drop (h : Heap U) (x : Cell) (u : U) : Heap U := ⟨h.next, h.log ++ [.drop x u]⟩

end Heap

variable {E : Env} {Q : Type}

/-- `Buffer::from` (buffer.rs:58-63).  When `validate` panics its argument is dropped, otherwise the value moves
into the buffer. -/
def Heap.fill (h : Heap E.U) (x : Cell) (u : E.U) : Heap E.U × Option Cell :=
  match validate (E.layout u) with
  | .ok _ => (h, some x)
  | .error _ => (h.drop x u, none)

/-- a new value put in a buffer -/
def Heap.alloc (h : Heap E.U) (u : E.U) : Heap E.U × Option Cell := (h.create u).1.fill (h.create u).2 u

/-- the vector of a `StatMap` (stat_map.rs:67-70) -/
abbrev LMap (E : Env) (Q : Type) := Vec E Q Cell

namespace LMap
variable [Ord Q] (A : Addr E)

/-- `Drop` of entries (stat_map.rs:35-39), at the type of the entry's vtable (stat.rs:58-61, 89-92) -/
def dropAll (h : Heap E.U) (l : LMap E Q) : Heap E.U := l.foldl (fun h e => h.drop e.buf e.stat.ty) h

/-- store the outcome of `Buffer::from` under a key, unless it panicked; a buffer in its way is overwritten
without being dropped (stat_map.rs:170, 191) -/
def store (m : LMap E Q) (q : Qualifier Q) (s : StatInst E) : Heap E.U × Option Cell → Heap E.U × LMap E Q
  | (h, some b) => (h, (m.put A q s b).1)
  | (h, none) => (h, m)

/-- `insert`, `insert_base` (stat_map.rs:166-202) -/
def insert (h : Heap E.U) (m : LMap E Q) (q : Qualifier Q) (s : StatInst E) : Heap E.U × LMap E Q :=
  store A m q s (h.alloc s.ty)

/-- `get`, `get_mut`, `get_evaled` (stat_map.rs:205-224, 236-246) -/
def get (h : Heap E.U) (m : LMap E Q) (q : Qualifier Q) (s : StatInst E) : Heap E.U × LMap E Q :=
  match m.find A q s with
  | some x => (h.use x s.ty, m)
  | none => (h, m)

/-- `modify`, `modify_with` (stat_map.rs:292-341); when `fails`, the operation or closure panics: a value that was
being made for the map is a local variable and is dropped -/
def modify (h : Heap E.U) (m : LMap E Q) (q : Qualifier Q) (s : StatInst E) (fails : Bool) :
    Heap E.U × LMap E Q :=
  match m.find A q s with
  | some x => (h.use x s.ty, m)
  | none =>
    if fails then ((h.create s.ty).1.drop (h.create s.ty).2 s.ty, m)
    else store A m q s (h.alloc s.ty)

/-- `remove` (stat_map.rs:227-233): `take` reads the value out of the buffer and forgets the entry
(stat_map.rs:45-49) -/
def remove (h : Heap E.U) (m : LMap E Q) (q : Qualifier Q) (s : StatInst E) : Heap E.U × LMap E Q :=
  match m.pull A q s with
  | (m', some x) => (h.move x s.ty, m')
  | (m', none) => (h, m')

/-- `iter`, `iter_mut` run to the end (stat_map.rs:263-279): every buffer of the range is accessed at the stat's
value type -/
def iter (h : Heap E.U) (m : LMap E Q) (s : StatInst E) : Heap E.U × LMap E Q :=
  match m.slice A s with
  | .ok l => (l.foldl (fun h e => h.use e.buf s.ty) h, m)
  | .error _ => (h, m)

/-- `remove_all` (stat_map.rs:282-287) -/
def removeAll (h : Heap E.U) (m : LMap E Q) (s : StatInst E) : Heap E.U × LMap E Q :=
  match Vec.removeAll A m s with
  | .ok (m', l) => (dropAll h l, m')
  | .error _ => (h, m)

/-- `clear` (stat_map.rs:140-142) -/
def clear (h : Heap E.U) (m : LMap E Q) : Heap E.U × LMap E Q := (dropAll h m, [])

/-- the loop of `stream_stat` (stat_map.rs:371-376) on the value `x`: `failsAt` is the number of the join that
panics, if any -/
def joinAll (s : StatInst E) (x : Cell) : Heap E.U → LMap E Q → Option Nat → Heap E.U × Bool
  | h, [], _ => (h, true)
  | h, e :: l, failsAt =>
    if failsAt = some 0 then ((h.use x s.ty).use e.buf s.ty, false)
    else joinAll s x ((h.use x s.ty).use e.buf s.ty) l (failsAt.map (· - 1))

/-- the end of `query_stat` (stat_map.rs:351): the value goes to the caller, who is gone after a panic -/
def finish (s : StatInst E) (x : Cell) : Heap E.U × Bool → Heap E.U
  | (h, true) => h.move x s.ty
  | (h, false) => h

/-- `query_stat`, `eval_stat` (stat_map.rs:343-360) -/
def query [QualifierFlag Q] (h : Heap E.U) (m : LMap E Q) (query : QualifierQuery Q) (s : StatInst E)
    (failsAt : Option Nat) : Heap E.U × LMap E Q :=
  match h.alloc s.ty with
  | (h1, none) => (h1, m)
  | (h1, some x) =>
    match m.slice A s with
    | .ok l => (finish s x (joinAll s x h1 (l.filter (fun e => e.qual.qualifiesAs query)) failsAt), m)
    | .error _ => (h1, m)

/-- cloning entries (stat_map.rs:25-33) until the one numbered `failsAt` panics; the flag tells whether all were
cloned -/
def cloneAll : Heap E.U → LMap E Q → Option Nat → Heap E.U × LMap E Q × Bool
  | h, [], _ => (h, [], true)
  | h, e :: l, failsAt =>
    if failsAt = some 0 then (h.use e.buf e.stat.ty, [], false)
    else
      let h1 := (h.use e.buf e.stat.ty).create e.stat.ty
      let r := cloneAll h1.1 l (failsAt.map (· - 1))
      (r.1, { e with buf := h1.2 } :: r.2.1, r.2.2)

/-- derived `Clone` of `StatMap` (stat_map.rs:64): after a panic `Vec::clone` drops what it cloned so far -/
def clone (h : Heap E.U) (m : LMap E Q) (failsAt : Option Nat) : Heap E.U × Option (LMap E Q) :=
  match cloneAll h m failsAt with
  | (h', l, true) => (h', some l)
  | (h', l, false) => (dropAll h' l, none)

/-- the entries built by `from_iter` and `extend` (stat_map.rs:103-113, 121-129) for one stat type; after a panic
of `validate`, or of the iterator after its last item when `fails`, the ones built so far are dropped -/
def entries (T : E.S) (fails : Bool) : Heap E.U → List (Qualifier Q × Nat) → Heap E.U × Option (LMap E Q)
  | h, [] => (h, if fails then none else some [])
  | h, (q, i) :: l =>
    match h.alloc (E.valTy T) with
    | (h1, none) => (h1, none)
    | (h1, some b) =>
      match entries T fails h1 l with
      | (h2, some r) => (h2, some (⟨⟨T, i⟩, q, b⟩ :: r))
      | (h2, none) => (h2.drop b (E.valTy T), none)

/-- `from_iter` (stat_map.rs:101-117) -/
def fromIter (h : Heap E.U) (T : E.S) (items : List (Qualifier Q × Nat)) (fails : Bool) :
    Heap E.U × Option (LMap E Q) :=
  match entries T fails h items with
  | (h', some l) => (h', some (Vec.sorted A l))
  | (h', none) => (h', none)

/-- `extend` (stat_map.rs:119-132).  `validate` depends on the type only, so when it panics no item has been
appended yet.  Here the iterator does not panic; see `Verif.Model.LedgerWild`. -/
def extend (h : Heap E.U) (m : LMap E Q) (T : E.S) (items : List (Qualifier Q × Nat)) : Heap E.U × LMap E Q :=
  match entries T false h items with
  | (h', some l) => (h', Vec.sorted A (m ++ l))
  | (h', none) => (h', m)

end LMap

/-! ### programs using several maps -/

/-- one step of a program; maps are numbered, `i` is the map it works on -/
inductive LOp (E : Env) (Q : Type) where
  | new
  | insert (i : Nat) (q : Qualifier Q) (s : StatInst E)
  | get (i : Nat) (q : Qualifier Q) (s : StatInst E)
  | modify (i : Nat) (q : Qualifier Q) (s : StatInst E) (fails : Bool)
  | remove (i : Nat) (q : Qualifier Q) (s : StatInst E)
  | iter (i : Nat) (s : StatInst E)
  | removeAll (i : Nat) (s : StatInst E)
  | clear (i : Nat)
  | query (i : Nat) (q : QualifierQuery Q) (s : StatInst E) (failsAt : Option Nat)
  | clone (i : Nat) (failsAt : Option Nat)
  | fromIter (T : E.S) (items : List (Qualifier Q × Nat)) (fails : Bool)
  | extend (i : Nat) (T : E.S) (items : List (Qualifier Q × Nat))
  /-- a map goes out of scope -/
  | dropMap (i : Nat)

/-- the values and the maps of a program -/
structure LState (E : Env) (Q : Type) where
  heap : Heap E.U
  maps : List (LMap E Q)

namespace LState
variable [Ord Q] (A : Addr E)

def new : LState E Q := ⟨.new, []⟩

/-- work on one map -/
def on (st : LState E Q) (i : Nat) (f : Heap E.U → LMap E Q → Heap E.U × LMap E Q) : LState E Q :=
  match st.maps[i]? with
  | some m => ⟨(f st.heap m).1, st.maps.set i (f st.heap m).2⟩
  | none => st

/-- one more map, if it could be made -/
def push (st : LState E Q) : Heap E.U × Option (LMap E Q) → LState E Q
  | (h, some m) => ⟨h, st.maps ++ [m]⟩
  | (h, none) => ⟨h, st.maps⟩

def step [QualifierFlag Q] (st : LState E Q) : LOp E Q → LState E Q
  | .new => ⟨st.heap, st.maps ++ [[]]⟩
  | .insert i q s => st.on i (fun h m => LMap.insert A h m q s)
  | .get i q s => st.on i (fun h m => LMap.get A h m q s)
  | .modify i q s fails => st.on i (fun h m => LMap.modify A h m q s fails)
  | .remove i q s => st.on i (fun h m => LMap.remove A h m q s)
  | .iter i s => st.on i (fun h m => LMap.iter A h m s)
  | .removeAll i s => st.on i (fun h m => LMap.removeAll A h m s)
  | .clear i => st.on i LMap.clear
  | .query i q s failsAt => st.on i (fun h m => LMap.query A h m q s failsAt)
  | .clone i failsAt =>
    match st.maps[i]? with
    | some m => st.push (LMap.clone st.heap m failsAt)
    | none => st
  | .fromIter T items fails => st.push (LMap.fromIter A st.heap T items fails)
  | .extend i T items => st.on i (fun h m => LMap.extend A h m T items)
  | .dropMap i =>
    match st.maps[i]? with
    | some m => ⟨LMap.dropAll st.heap m, st.maps.eraseIdx i⟩
    | none => st

def runFrom [QualifierFlag Q] (st : LState E Q) (os : List (LOp E Q)) : LState E Q := os.foldl (step A) st

/-- run a program -/
def run [QualifierFlag Q] (os : List (LOp E Q)) : LState E Q := runFrom A new os

/-- all maps go out of scope -/
def finish (st : LState E Q) : Heap E.U := st.maps.foldl LMap.dropAll st.heap

end LState

/-! ### hash maps of buffers: the cache and the defaults -/

section hash
variable {K : Type} (eq : K → K → Bool) (ty : K → E.U)

/-- the loops of `StatCache::clear` and of both `Drop`s (cache.rs:86-88, 95-97, plugin.rs:187-189) -/
def HMap.dropCells (h : Heap E.U) (m : HMap K Cell) : Heap E.U := m.foldl (fun h e => h.drop e.2 (ty e.1)) h

end hash

/-- a use of the cache or of the registry of defaults; `K` is the type of keys -/
inductive HOp (E : Env) (K : Type) where
  /-- `cache_pair` (cache.rs:56-65): a clone of the pair's value is inserted, what it replaces is discarded as a
  buffer; `insert` of `GlobalStatDefaults` (plugin.rs:148-150) is the same with the caller's value -/
  | insert (k : K)
  /-- `patch` (plugin.rs:153-165) -/
  | patch (k : K) (fails : Bool)
  /-- `try_get_cached_dyn` (cache.rs:67-82) -/
  | lookup (k : K)
  /-- `GlobalStatDefaults::get` (plugin.rs:168-174) -/
  | get (k : K)
  /-- `get_dyn` (plugin.rs:177-182) -/
  | getDyn (k : K)
  /-- `StatCache::clear` (cache.rs:84-90) -/
  | clear

/-- the values and one hash map -/
structure HState (E : Env) (K : Type) where
  heap : Heap E.U
  map : HMap K Cell

namespace HState
variable {K : Type} (eq : K → K → Bool) (ty : K → E.U)

def new : HState E K := ⟨.new, []⟩

/-- insertion of a filled buffer; the returned old buffer is thrown away -/
def store (st : HState E K) (k : K) : Heap E.U × Option Cell → HState E K
  | (h, some b) => ⟨h, (HMap.insert eq st.map k b).1⟩
  | (h, none) => ⟨h, st.map⟩

/-- a value cloned out of the map for the caller (cache.rs:81, plugin.rs:171-172, 180) -/
def cloneOut (h : Heap E.U) (x : Cell) (u : E.U) : Heap E.U :=
  let h1 := (h.use x u).create u
  h1.1.move h1.2 u

/-- a default value made for the caller (plugin.rs:173, 181) -/
def defaultOut (h : Heap E.U) (u : E.U) : Heap E.U :=
  match h.alloc u with
  | (h1, some b) => h1.move b u
  | (h1, none) => h1

/-- one step.  `get` and `getDyn` make a default value whether they need it or not (`unwrap_or`, plugin.rs:173,
181): in `get` an unneeded one is dropped, in `getDyn` it is a forgotten buffer.  In `patch` of an absent key the value that was made is dropped and the operation is stored in its
place (plugin.rs:158-162): that is no value of the type `ty k`; it is recorded as `opTy k`. -/
def step (opTy : K → E.U) (st : HState E K) : HOp E K → HState E K
  | .insert k => st.store eq k (st.heap.alloc (ty k))
  | .patch k fails =>
    match HMap.get eq st.map k with
    | some x => ⟨st.heap.use x (ty k), st.map⟩
    | none =>
      let h1 := st.heap.create (opTy k)
      let h2 := h1.1.create (ty k)
      let h3 := h2.1.drop h2.2 (ty k)
      if fails then ⟨h3.drop h1.2 (opTy k), st.map⟩
      else st.store eq k (h3.fill h1.2 (opTy k))
  | .lookup k =>
    match HMap.get eq st.map k with
    | some x => ⟨cloneOut st.heap x (ty k), st.map⟩
    | none => st
  | .get k =>
    match HMap.get eq st.map k with
    | some x =>
      let h1 := (cloneOut st.heap x (ty k)).create (ty k)
      ⟨h1.1.drop h1.2 (ty k), st.map⟩
    | none =>
      let h1 := st.heap.create (ty k)
      ⟨h1.1.move h1.2 (ty k), st.map⟩
  | .getDyn k =>
    match HMap.get eq st.map k with
    | some x => ⟨((cloneOut st.heap x (ty k)).alloc (ty k)).1, st.map⟩
    | none => ⟨defaultOut st.heap (ty k), st.map⟩
  | .clear => ⟨HMap.dropCells ty st.heap st.map, []⟩

def run (opTy : K → E.U) (os : List (HOp E K)) : HState E K := os.foldl (step eq ty opTy) new

/-- the resource is dropped -/
def finish (st : HState E K) : Heap E.U := HMap.dropCells ty st.heap st.map

end HState
end BSQ
