import Verif.Model.Ledger
/-!
# The lock of the cache after caught panics  (src/cache.rs)

The cache is a `RwLock` (cache.rs:26) whose guards are obtained by `read().unwrap()` and `write().unwrap()`.  A
panic that unwinds through a write guard poisons the lock; read guards do not poison.  A poisoned lock makes every
`unwrap` panic.  Here `Clone`, `Debug` and `Drop` of user values may panic, and the caller may catch the panic and
carry on.  Calls on several threads are ordered by the lock, and are taken one after the other.

Not modelled: a cache used by a thread that is already panicking (a guard taken then does not poison; a second
panic aborts the process), and panicking `Hash`, `Eq` and `Clone` of qualifiers; for both see
`Verif.Model.HostileCache`.
-/
namespace BSQ
variable {E : Env} {K : Type}

/-- the order in which a hash map is traversed: some permutation of its entries -/
structure HashOrder (K : Type) where
  list : HMap K Cell → HMap K Cell
  perm : ∀ m, (list m).Perm m

/-- a call; `fails` and `failsAt` say whether, or at which entry, user code panics -/
inductive POp (K : Type) where
  | cachePair (k : K) (fails : Bool)
  | lookup (k : K) (fails : Bool)
  | debug (ord : HashOrder K) (failsAt : Option Nat)
  | clear (ord : HashOrder K) (failsAt : Option Nat)

/-- the values, the map, and whether the lock is poisoned -/
structure PState (E : Env) (K : Type) where
  st : HState E K
  poisoned : Bool

namespace PState
variable (eq : K → K → Bool) (ty : K → E.U)

def new : PState E K := ⟨.new, false⟩

/-- `cache_pair` (cache.rs:56-65): `write().unwrap()` is evaluated before `pair.clone_buffer()`, so the clone
(stat.rs:57, 88) runs under the guard.  The flag tells whether the call returns. -/
def cachePair (p : PState E K) (k : K) (fails : Bool) : PState E K × Bool :=
  if p.poisoned then (p, false)
  else if fails then (⟨p.st, true⟩, false)
  else
    match p.st.heap.alloc (ty k) with
    | (h, some b) => (⟨p.st.store eq k (h, some b), false⟩, true)
    | (h, none) => (⟨⟨h, p.st.map⟩, true⟩, false)

/-- `try_get_cached_dyn` (cache.rs:67-82): the clone runs under a read guard -/
def lookup (p : PState E K) (k : K) (fails : Bool) : PState E K × Bool :=
  if p.poisoned then (p, false)
  else
    match HMap.get eq p.st.map k with
    | none => (p, true)
    | some x =>
      if fails then (⟨⟨p.st.heap.use x (ty k), p.st.map⟩, false⟩, false)
      else (⟨⟨HState.cloneOut p.st.heap x (ty k), p.st.map⟩, false⟩, true)

/-- the loop of `Debug` (cache.rs:34-38): entries are printed until one panics -/
def useUntil : Heap E.U → HMap K Cell → Option Nat → Heap E.U × Bool
  | h, [], _ => (h, true)
  | h, e :: l, failsAt =>
    if failsAt = some 0 then (h.use e.2 (ty e.1), false)
    else useUntil (h.use e.2 (ty e.1)) l (failsAt.map (· - 1))

/-- `Debug` of the cache (cache.rs:29-41), under a read guard -/
def debug (p : PState E K) (ord : HashOrder K) (failsAt : Option Nat) : PState E K × Bool :=
  if p.poisoned then (p, false)
  else
    match useUntil ty p.st.heap (ord.list p.st.map) failsAt with
    | (h, ok) => (⟨⟨h, p.st.map⟩, false⟩, ok)

/-- the loops of `clear` and `Drop` (cache.rs:86-88, 95-97): values are dropped until a destructor panics; a
destructor that panicked has run -/
def dropUntil : Heap E.U → HMap K Cell → Option Nat → Heap E.U × Bool
  | h, [], _ => (h, true)
  | h, e :: l, failsAt =>
    if failsAt = some 0 then (h.drop e.2 (ty e.1), false)
    else dropUntil (h.drop e.2 (ty e.1)) l (failsAt.map (· - 1))

/-- `clear` (cache.rs:84-90): when a destructor panics, `cache.clear()` (line 89) is not reached and the map keeps
the buffers of the dropped values -/
def clear (p : PState E K) (ord : HashOrder K) (failsAt : Option Nat) : PState E K × Bool :=
  if p.poisoned then (p, false)
  else
    match dropUntil ty p.st.heap (ord.list p.st.map) failsAt with
    | (h, true) => (⟨⟨h, []⟩, false⟩, true)
    | (h, false) => (⟨⟨h, p.st.map⟩, true⟩, false)

def step (p : PState E K) : POp K → PState E K × Bool
  | .cachePair k fails => cachePair eq ty p k fails
  | .lookup k fails => lookup eq ty p k fails
  | .debug ord failsAt => debug ty p ord failsAt
  | .clear ord failsAt => clear ty p ord failsAt

/-- a program on one cache, every panic being caught; the list tells which calls returned -/
def runFrom (p : PState E K) : List (POp K) → PState E K × List Bool
  | [] => (p, [])
  | o :: os =>
    let r := step eq ty p o
    let rest := runFrom r.1 os
    (rest.1, r.2 :: rest.2)

def run (os : List (POp K)) : PState E K × List Bool := runFrom eq ty new os

/-- `Drop` of the cache (cache.rs:93-99): it panics when the lock is poisoned.  The map itself is dropped
afterwards; buffers have no destructor. -/
def finish (p : PState E K) (ord : HashOrder K) (failsAt : Option Nat) : Heap E.U × Bool :=
  if p.poisoned then (p.st.heap, false) else dropUntil ty p.st.heap (ord.list p.st.map) failsAt

end PState

/-- `Drop` of `GlobalStatDefaults` (plugin.rs:185-191): there is no lock, and the same loop; it stops at a destructor
that panics.  The map itself is dropped afterwards; buffers have no destructor. -/
def HState.finishUntil (ty : K → E.U) (st : HState E K) (ord : HashOrder K) (failsAt : Option Nat) :
    Heap E.U × Bool :=
  PState.dropUntil ty st.heap (ord.list st.map) failsAt

end BSQ
