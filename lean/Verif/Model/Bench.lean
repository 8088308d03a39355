import Verif.Model.StatMap
import Verif.Model.Types.Int
/-!
# The benchmark  (benches/bench.rs)

It measures a query of a `StatMap` against a loop over a `BTreeMap` from qualifiers to base values, which is meant to
compute the same.
-/
namespace BSQ

/-- `BTreeMap` (std): its entries, in the order of the keys -/
abbrev BTree (K V : Type) := List (K × V)

/-- `BTreeMap::insert` (std): a key that is there keeps its place, and gets the new value -/
def BTree.insert {K V : Type} (cmp : K → K → Ordering) (k : K) (v : V) : BTree K V → BTree K V
  | [] => [(k, v)]
  | e :: t =>
    match cmp k e.1 with
    | .lt => (k, v) :: e :: t
    | .eq => (e.1, v) :: t
    | .gt => e :: BTree.insert cmp k v t

namespace Bench
variable {Q : Type} [Ord Q]

/-- the loop that fills the `BTreeMap` (bench.rs:17-20).  Simplification: `Box<dyn Any>` of a base value is the base
value; `downcast_ref` (bench.rs:28) is to the type it was made from. -/
def fillTree {B : Type} (items : List (Qualifier Q × B)) : BTree (Qualifier Q) B :=
  items.foldl (fun t x => BTree.insert Qualifier.cmp x.1 x.2 t) []

/-- the loop that fills the `StatMap` (bench.rs:17-18) -/
def fillMap {E : Env} (A : Addr E) (s : StatInst E) (items : List (Qualifier Q × s.sv.BaseT)) : Res (StatMap E Q) :=
  items.foldlM (fun m x => StatMap.insertBase A m x.1 s x.2) StatMap.new

/-- `naive_btree_aggregate_many` (bench.rs:22-32), for any query and stat type; `op` makes an operation of a base
value, in the benchmark `Add` -/
def naive [QualifierFlag Q] {V : Type} (D : StatValue V) (op : D.BaseT → StatOp D) (query : QualifierQuery Q)
    (t : BTree (Qualifier Q) D.BaseT) : Res V :=
  ((t.filter (fun e => e.1.qualifiesAs query)).map (·.2)).foldlM
    (fun result v => do
      let x ← (op v).intoStat
      D.join result x) D.default

/-- the items of the benchmark (bench.rs:17-19): `Qualifier::all_of(i)` with base value 1, for `i` in `0..n`; `n` is
1024 there -/
def items (w n : Nat) : List (Qualifier (BitVec w) × Int) :=
  (List.range n).map (fun i => (.ofAll (BitVec.ofNat w i), 1))

/-- the program (bench.rs:9-11): one stat `S`, a `StatIntPercentAdditive<i32>`, rounded with `Truncate` in percents of
100 by default (int_pct.rs:15) -/
abbrev prog (b : Build) : Env where
  U := Unit
  El _ := StatIntPercentAdditive
  sv _ := statIntPercentAdditive ⟨.i32, .prim, b⟩ .truncate 100
  layout _ := ⟨16, 8⟩
  opLayout _ := ⟨8, 4⟩
  S := Unit
  valTy s := s
  statLayout _ := ⟨0, 1⟩
  Sel _ := Unit
  asIndex _ := 0
  fromIndex _ _ := .ok ()
  statName _ := "S"
  values _ := [()]

/-- the stat `S` (bench.rs:11) -/
abbrev S (b : Build) : StatInst (prog b) := ⟨(), 0⟩

end Bench
end BSQ
