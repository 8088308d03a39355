import Verif.Model.StatMap
/-!
# The comparisons made by searches  (src/stat_map.rs:155-163, 249-260, 282-287)

`Verif.Model.StatMap` has the results of `binary_search_by` and `partition_point`.  Here the comparisons are requests:
the search is a program that asks how the element at an index compares, and goes on with the answer.
-/
namespace BSQ

/-- a program that asks for comparisons with elements of a slice -/
inductive Ask (α : Type) where
  | done (a : α)
  | ask (i : Nat) (k : Ordering → Ask α)

namespace Ask
variable {α β : Type}

/-- the result, given the answers -/
def run (f : Nat → Ordering) : Ask α → α
  | .done a => a
  | .ask i k => (k (f i)).run f

/-- the indices asked for, in this order -/
def asked (f : Nat → Ordering) : Ask α → List Nat
  | .done _ => []
  | .ask i k => i :: (k (f i)).asked f

end Ask

/-- the loop of `slice::binary_search_by` (Rust core), followed by `k` -/
def bsLoopAsk {α : Type} (k : Nat → Ask α) : (fuel base size : Nat) → Ask α
  | 0, base, _ => k base
  | fuel + 1, base, size =>
    if 1 < size then .ask (base + size / 2) fun c =>
      bsLoopAsk k fuel (if c = .gt then base else base + size / 2) (size - size / 2)
    else k base

/-- the comparison after the loop -/
def lastAsk (base : Nat) : Ask (Except Nat Nat) := .ask base fun
  | .eq => .done (.ok base)
  | .lt => .done (.error (base + 1))
  | .gt => .done (.error base)

/-- `slice::binary_search_by` (Rust core) on a slice of length `n` -/
def searchAsk (n : Nat) : Ask (Except Nat Nat) :=
  if n = 0 then .done (.error 0)
  else bsLoopAsk lastAsk n 0 n

/-- how the key `(s, q)` compares in `StatMap::binary_search` (stat_map.rs:155-163) -/
def Vec.answer {E : Env} {Q B : Type} [Ord Q] (A : Addr E) (m : Vec E Q B) (q : Qualifier Q) (s : StatInst E) (i : Nat) :
    Ordering := (m[i]?).elim .gt fun e => e.keyCmp A s q

/-- what `partition_point` takes for the answer of a predicate (Rust core) -/
def Vec.lower {E : Env} {Q B : Type} (A : Addr E) (m : Vec E Q B) (s : StatInst E) (i : Nat) : Ordering :=
  (m[i]?).elim .gt fun e => if e.stat.cmp A s == .lt then .lt else .gt
def Vec.upper {E : Env} {Q B : Type} (A : Addr E) (m : Vec E Q B) (s : StatInst E) (i : Nat) : Ordering :=
  (m[i]?).elim .gt fun e => if e.stat.cmp A s != .gt then .lt else .gt

end BSQ
