import Verif.Model.Ledger
/-!
# Who owns the qualifiers

A flag type may be a set that owns memory (qualifier.rs:12, "normally bitflags or a set"): `QualifierFlag` asks for
`Clone`, not for `Copy`.  Here the ledger of `Verif.Model.Ledger` is kept for the qualifiers instead of the values:
the cell of an entry is its `qualifier` field (stat_map.rs:21).  What the log calls the type of a qualifier is the
value type of the stat it comes with; it is only a label.

Qualifiers given by value (`insert`, `modify`, iterators) are created when the call begins.  Code that compares
entries is taken to look at every entry's qualifier.  `==`, `cmp`, `clone` and the destructor of the flag type do not
panic here (for those that do see `Verif.Model.Hostile`); user code of values may.
-/
namespace BSQ
variable {E : Env} {Q : Type}

namespace QMap
variable [Ord Q] (A : Addr E)

/-- qualifiers are compared with a key or a query, or lent to the caller -/
def look (h : Heap E.U) (l : LMap E Q) : Heap E.U := l.foldl (fun h e => h.use e.buf e.stat.ty) h

/-- the search of `insert` and `modify`, and what becomes of the key given by value: an entry that is found keeps its
own qualifier and the given one is dropped at the end of the function (stat_map.rs:169-179, 190-201) -/
def place (h : Heap E.U) (m : LMap E Q) (q : Qualifier Q) (s : StatInst E) (x : Cell) : Heap E.U × LMap E Q :=
  match m.search A q s with
  | .ok _ => ((look h m).drop x s.ty, m)
  | .error i => (look h m, m.insertIdx i ⟨s, q, x⟩)

/-- `insert`, `insert_base` (stat_map.rs:166-202); a panic of `Buffer::from` drops the qualifier -/
def insert (h : Heap E.U) (m : LMap E Q) (q : Qualifier Q) (s : StatInst E) : Heap E.U × LMap E Q :=
  match h.alloc s.ty with
  | (h1, some x) => place A h1 m q s x
  | (h1, none) => (h1, m)

/-- `modify`, `modify_with` (stat_map.rs:292-341); `fails` when the operation or closure panics, which drops the
qualifier, as does a panic of `Buffer::from` -/
def modify (h : Heap E.U) (m : LMap E Q) (q : Qualifier Q) (s : StatInst E) (fails : Bool) :
    Heap E.U × LMap E Q :=
  let h1 := h.create s.ty
  match m.search A q s with
  | .ok _ => ((look h1.1 m).drop h1.2 s.ty, m)
  | .error i =>
    if fails then ((look h1.1 m).drop h1.2 s.ty, m)
    else
      match (look h1.1 m).fill h1.2 s.ty with
      | (h2, some x) => (h2, m.insertIdx i ⟨s, q, x⟩)
      | (h2, none) => (h2, m)

/-- `get`, `get_mut`, `get_evaled` (stat_map.rs:205-224, 236-246): the key is lent by the caller -/
def get (h : Heap E.U) (m : LMap E Q) : Heap E.U × LMap E Q := (look h m, m)

/-- `remove` (stat_map.rs:227-233): `take` (stat_map.rs:45-49) moves the value out and then calls `mem::forget` on
the whole entry, so nobody drops its qualifier -/
def remove (h : Heap E.U) (m : LMap E Q) (q : Qualifier Q) (s : StatInst E) : Heap E.U × LMap E Q :=
  (look h m, (m.pull A q s).1)

/-- `iter`, `iter_mut` (stat_map.rs:263-279), and the loop of `stream_stat` (stat_map.rs:371-376), also when a join
panics -/
def iter (h : Heap E.U) (m : LMap E Q) (s : StatInst E) : Heap E.U × LMap E Q :=
  match m.slice A s with
  | .ok l => (look h l, m)
  | .error _ => (h, m)

/-- `remove_all` (stat_map.rs:282-287): the drained entries are dropped, with their qualifiers -/
def removeAll (h : Heap E.U) (m : LMap E Q) (s : StatInst E) : Heap E.U × LMap E Q :=
  match Vec.removeAll A m s with
  | .ok (m', l) => (LMap.dropAll h l, m')
  | .error _ => (h, m)

/-- `clear` (stat_map.rs:140-142) -/
def clear (h : Heap E.U) (m : LMap E Q) : Heap E.U × LMap E Q := (LMap.dropAll h m, [])

/-- cloning entries (stat_map.rs:25-33) until cloning the value of the one numbered `failsAt` panics: the clone of its
qualifier, already made, is dropped -/
def cloneAll : Heap E.U → LMap E Q → Option Nat → Heap E.U × LMap E Q × Bool
  | h, [], _ => (h, [], true)
  | h, e :: l, failsAt =>
    let h1 := (h.use e.buf e.stat.ty).create e.stat.ty
    if failsAt = some 0 then (h1.1.drop h1.2 e.stat.ty, [], false)
    else
      let r := cloneAll h1.1 l (failsAt.map (· - 1))
      (r.1, { e with buf := h1.2 } :: r.2.1, r.2.2)

/-- derived `Clone` of `StatMap` (stat_map.rs:64) -/
def clone (h : Heap E.U) (m : LMap E Q) (failsAt : Option Nat) : Heap E.U × Option (LMap E Q) :=
  match cloneAll h m failsAt with
  | (h', l, true) => (h', some l)
  | (h', l, false) => (LMap.dropAll h' l, none)

/-- one step of a program.  `from_iter` and `extend` (stat_map.rs:101-132) treat the qualifiers as they treat the
values: each item brings one, they are stored or, after a panic, dropped. -/
def step [QualifierFlag Q] (st : LState E Q) : LOp E Q → LState E Q
  | .new => ⟨st.heap, st.maps ++ [[]]⟩
  | .insert i q s => st.on i (fun h m => insert A h m q s)
  | .get i _ _ => st.on i get
  | .modify i q s fails => st.on i (fun h m => modify A h m q s fails)
  | .remove i q s => st.on i (fun h m => remove A h m q s)
  | .iter i s => st.on i (fun h m => iter A h m s)
  | .removeAll i s => st.on i (fun h m => removeAll A h m s)
  | .clear i => st.on i clear
  | .query i _ s _ => st.on i (fun h m => iter A h m s)
  | .clone i failsAt =>
    match st.maps[i]? with
    | some m => st.push (clone st.heap m failsAt)
    | none => st
  | .fromIter T items fails => st.push (LMap.fromIter A st.heap T items fails)
  | .extend i T items => st.on i (fun h m => LMap.extend A h m T items)
  | .dropMap i =>
    match st.maps[i]? with
    | some m => ⟨LMap.dropAll st.heap m, st.maps.eraseIdx i⟩
    | none => st

/-- run a program -/
def run [QualifierFlag Q] (os : List (LOp E Q)) : LState E Q := os.foldl (step A) LState.new

end QMap

/-! ### the keys of the cache -/

/-- a use of the cache, as far as its keys are concerned -/
inductive KeyOp (K : Type) where
  /-- `cache_pair` (cache.rs:56-65), given the query by value; `fails` when cloning the pair's value panics -/
  | store (k : K) (fails : Bool)
  /-- `try_get_cached_dyn` (cache.rs:67-82), which clones the query; `fails` when cloning the value found panics -/
  | lookup (k : K) (fails : Bool)
  /-- `clear` (cache.rs:84-90); `fails` when the destructor of a value panics -/
  | clear (fails : Bool)

/-- the keys of a cache, each with the cell that stands for what it owns (cache.rs:26), and whether its lock is
poisoned -/
structure KeyState (K : Type) where
  heap : Heap Unit
  map : HMap K Cell
  poisoned : Bool

namespace KeyState
variable {K : Type} (eq : K → K → Bool)

def new : KeyState K := ⟨.new, [], false⟩

/-- the stored keys are compared with the given one -/
def look (h : Heap Unit) (m : HMap K Cell) : Heap Unit := m.foldl (fun h e => h.use e.2 ()) h
/-- the stored keys are dropped -/
def dropAll (h : Heap Unit) (m : HMap K Cell) : Heap Unit := m.foldl (fun h e => h.drop e.2 ()) h

/-- one step: a poisoned lock panics in `unwrap` (cache.rs:57, 75, 85), which drops the query given by value.  A panic
under the write guard poisons (cache.rs:63, 86-88), one under the read guard does not (cache.rs:81).
`HashMap::insert` keeps the key it has and drops the one it is given. -/
def step (st : KeyState K) : KeyOp K → KeyState K
  | .store k fails =>
    let h1 := st.heap.create ()
    if st.poisoned then { st with heap := h1.1.drop h1.2 () }
    else if fails then ⟨h1.1.drop h1.2 (), st.map, true⟩
    else
      match HMap.get eq st.map k with
      | some _ => { st with heap := (look h1.1 st.map).drop h1.2 () }
      | none => { st with heap := look h1.1 st.map, map := st.map ++ [(k, h1.2)] }
  | .lookup _ _ =>
    if st.poisoned then st
    else
      let h1 := st.heap.create ()
      { st with heap := (look h1.1 st.map).drop h1.2 () }
  | .clear fails =>
    if st.poisoned then st
    else if fails then { st with poisoned := true }
    else { st with heap := dropAll st.heap st.map, map := [] }

def run (os : List (KeyOp K)) : KeyState K := os.foldl (step eq) new

/-- the cache is dropped: whether or not `Drop` (cache.rs:93-99) panics, its field is dropped, with all keys -/
def finish (st : KeyState K) : Heap Unit := dropAll st.heap st.map

end KeyState
end BSQ
