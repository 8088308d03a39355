import Verif.Model.Poison
/-!
# The cache and user code that does whatever it likes  (src/cache.rs)

Like `Verif.Model.Poison`, but `Eq`, `Hash`, `Clone` and `Drop` of qualifiers are arbitrary too, and the cache may be
used by a thread that is already panicking (from a destructor that runs during unwinding, and catches what it calls).
Guards taken by such a thread do not poison (`std::sync::poison::Flag`).

With a wrong `Eq` or `Hash` a hash map may find any entry that the derived `==` of `CachedEntry` (cache.rs:11-16) could
call equal: entity and stat are compared as they should be, the queries are anybody's guess.  With a panicking `Hash` a
hash map that is being rehashed in place drops entries, of which the buffers are forgotten.  Memory safety of the hash
map itself is trusted.
-/
namespace BSQ
variable {E : Env} {K : Type}

/-- how a search in the hash map ends: user code panics, nothing is found, or the entry at `j` -/
inductive Find where
  | panics
  | absent
  | at (j : Nat)

/-- what is left of a hash map after a panic of user code inside it -/
structure Thinned (K : Type) where
  apply : HMap K Cell → HMap K Cell
  sub : ∀ m, (apply m).Sublist m

/-- a call.  `late`: the call is made by a thread that is panicking already.  `cloneFails`: the clone of the value
panics.  `keyFails`: the destructor of a key panics. -/
inductive XPOp (K : Type) where
  | cachePair (late : Bool) (k : K) (cloneFails : Bool) (f : Find) (left : Thinned K) (keyFails : Bool)
  | lookup (k : K) (cloneFails : Bool) (f : Find) (keyFails : Bool)
  | debug (ord : HashOrder K) (failsAt : Option Nat)
  | clear (late : Bool) (ord : HashOrder K) (failsAt : Option Nat) (keyFails : Bool)

namespace PState
variable (same : K → K → Bool) (ty : K → E.U)

/-- the entry a search ends at: `same` tells which keys may be taken for equal -/
def seek (m : HMap K Cell) (k : K) : Find → Option (Nat × Cell)
  | .at j => (m[j]?).bind fun e => if same e.1 k then some (j, e.2) else none
  | _ => none

/-- `HashMap::insert`: the key of an entry that is found stays, its buffer is replaced and forgotten -/
def insertAt (m : HMap K Cell) (k : K) (b : Cell) : Option (Nat × Cell) → HMap K Cell
  | some (j, _) => List.modify m j (fun e => (e.1, b))
  | none => m ++ [(k, b)]

/-- `cache_pair` (cache.rs:56-65).  The clone is made before the search; its buffer is forgotten if the search
panics. -/
def cachePairX (p : PState E K) (late : Bool) (k : K) (cloneFails : Bool) (f : Find) (left : Thinned K)
    (keyFails : Bool) : PState E K × Bool :=
  if p.poisoned then (p, false)
  else if cloneFails then (⟨p.st, !late⟩, false)
  else
    match p.st.heap.alloc (ty k) with
    | (h, none) => (⟨⟨h, p.st.map⟩, !late⟩, false)
    | (h, some b) =>
      match f with
      | .panics => (⟨⟨h, left.apply p.st.map⟩, !late⟩, false)
      | f => (⟨⟨h, insertAt p.st.map k b (seek same p.st.map k f)⟩, keyFails && !late⟩, !keyFails)

/-- `try_get_cached_dyn` (cache.rs:67-82), under a read guard.  The key is dropped last; if that panics the clone is
forgotten. -/
def lookupX (p : PState E K) (k : K) (cloneFails : Bool) (f : Find) (keyFails : Bool) : PState E K × Bool :=
  if p.poisoned then (p, false)
  else
    match f with
    | .panics => (p, false)
    | f =>
      match seek same p.st.map k f with
      | none => (p, !keyFails)
      | some (_, x) =>
        if cloneFails then (⟨⟨p.st.heap.use x (ty k), p.st.map⟩, false⟩, false)
        else if keyFails then (⟨⟨((p.st.heap.use x (ty k)).create (ty k)).1, p.st.map⟩, false⟩, false)
        else (⟨⟨HState.cloneOut p.st.heap x (ty k), p.st.map⟩, false⟩, true)

/-- `clear` (cache.rs:84-90); keys are dropped by `cache.clear()` (line 89), which empties the map even if that
panics -/
def clearX (p : PState E K) (late : Bool) (ord : HashOrder K) (failsAt : Option Nat) (keyFails : Bool) :
    PState E K × Bool :=
  if p.poisoned then (p, false)
  else
    match dropUntil ty p.st.heap (ord.list p.st.map) failsAt with
    | (h, true) => (⟨⟨h, []⟩, keyFails && !late⟩, !keyFails)
    | (h, false) => (⟨⟨h, p.st.map⟩, !late⟩, false)

def stepX (p : PState E K) : XPOp K → PState E K × Bool
  | .cachePair late k cloneFails f left keyFails => cachePairX same ty p late k cloneFails f left keyFails
  | .lookup k cloneFails f keyFails => lookupX same ty p k cloneFails f keyFails
  | .debug ord failsAt => debug ty p ord failsAt
  | .clear late ord failsAt keyFails => clearX ty p late ord failsAt keyFails

/-- a program on one cache, every panic being caught -/
def runX (os : List (XPOp K)) : PState E K := os.foldl (fun p o => (stepX same ty p o).1) new

end PState
end BSQ
