import Verif.Model.LedgerSerde
/-!
# Programs that can leave a map unsorted

Two things put the entries of a `StatMap` out of order: an `extend` whose iterator panics (stat_map.rs:119-132; the
sort comes last), and loading (stat_map.rs:64, no sort at all).  These programs do both, along with all that
`Verif.Model.Ledger` has.
-/
namespace BSQ
variable {E : Env} {Q : Type} [Ord Q] (A : Addr E)

/-- `extend` (stat_map.rs:119-132) by an iterator that panics after the items: `Vec::extend` keeps what it has
appended, and the sort is never reached -/
def LMap.extendFails (h : Heap E.U) (m : LMap E Q) (T : E.S) (items : List (Qualifier Q × Nat)) :
    Heap E.U × LMap E Q :=
  match LMap.entries T false h items with
  | (h', some l) => (h', m ++ l)
  | (h', none) => (h', m)

/-- one step of a program -/
inductive WOp (E : Env) (Q : Type) where
  | op (o : LOp E Q)
  | extendFails (i : Nat) (T : E.S) (items : List (Qualifier Q × Nat))
  | load (d : Data)

namespace LState
variable (X : Serde E Q) (sc : DeScope E)

def wild [QualifierFlag Q] (st : LState E Q) : WOp E Q → LState E Q
  | .op o => st.step A o
  | .extendFails i T items => st.on i (fun h m => LMap.extendFails h m T items)
  | .load d => st.push (X.ownMap sc st.heap d)

def runWild [QualifierFlag Q] (os : List (WOp E Q)) : LState E Q := os.foldl (wild A X sc) new

end LState
end BSQ
