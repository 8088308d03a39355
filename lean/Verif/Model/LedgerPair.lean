import Verif.Model.Ledger
/-!
# Pairs in user code: references into them and who owns their values  (src/stat.rs:275-356)

A program in safe Rust with `StatValuePair`s of its own.  A `StatValuePair` has no destructor, and neither has its
`Buffer`.  `cast` and `is_then_cast` take `&mut self` and return a reference whose lifetime `'t` is a parameter that
nothing ties to `self` (stat.rs:318, 332), so the compiler lets the program use it at any later time.

Each place a pair is kept in has a tag, that is changed whenever the pair is used; a reference remembers the tag it
was made under.  A reference may be used while the place still has that tag: Rust's rule that a mutable reference is
dead once the place was accessed otherwise.  Simplification: pairs are kept in local variables, not inside other
values.
-/
namespace BSQ
variable {E : Env}

/-- a variable holding a `StatValuePair` -/
structure PairSlot (E : Env) where
  stat : StatInst E
  cell : Cell
  tag : Nat

/-- a reference `&'t mut T::Value` -/
structure PairRef (E : Env) where
  slot : Nat
  tag : Nat
  ty : E.U

/-- what the program does; `i` is a variable holding a pair, `v` one holding a reference -/
inductive PairOp (E : Env) where
  /-- `StatValuePair::new`, `new_default` into a new variable (stat.rs:298-310) -/
  | new (s : StatInst E)
  /-- `is`, or printing the pair (stat.rs:286-295, 313-315) -/
  | look (i : Nat)
  /-- `v = cast::<T>` (stat.rs:318-329) -/
  | cast (v i : Nat) (T : E.S)
  /-- `v = is_then_cast` (stat.rs:332-340) -/
  | castStat (v i : Nat) (T : E.S) (x : E.Sel T)
  /-- reading or writing through a reference, if there is one in `v` -/
  | use (v : Nat)
  /-- `into_result::<T>` (stat.rs:343-350) -/
  | intoResult (i : Nat) (T : E.S)
  /-- `i = StatValuePair::new(..)`, also in a stream that is handed a `&mut StatValuePair` -/
  | assign (i : Nat) (s : StatInst E)
  /-- the pair is moved to a new variable -/
  | move (i : Nat)
  /-- the pair goes out of scope -/
  | drop (i : Nat)

structure PairState (E : Env) where
  heap : Heap E.U
  slots : List (Option (PairSlot E))
  refs : Nat → Option (PairRef E)

namespace PairState
variable (A : Addr E)

def init : PairState E := ⟨.new, [], fun _ => none⟩

/-- the pair in a variable, if there is one -/
def at_ (st : PairState E) (i : Nat) : Option (PairSlot E) := st.slots[i]?.join

/-- the reference returned by a cast of the pair in `i`, into the variable `v` -/
def bind (st : PairState E) (v i : Nat) (p : PairSlot E) (T : E.S) (yes : Bool) : PairState E :=
  { st with
    slots := st.slots.set i (some { p with tag := p.tag + 1 })
    refs := fun w => if w = v then (if yes then some ⟨i, p.tag + 1, E.valTy T⟩ else none) else st.refs w }

/-- no reference in the variable `v` -/
def unbind (st : PairState E) (v : Nat) : PairState E :=
  { st with refs := fun w => if w = v then none else st.refs w }

/-- does `cast` return a reference (stat.rs:318-329)? -/
def castYes (p : PairSlot E) (T : E.S) : Bool :=
  match validate (E.statLayout T) with
  | .error _ => false
  | .ok _ =>
    if A.at_ p.stat.vt = A.at_ T then
      match E.fromIndex T p.stat.index with
      | .ok _ => true
      | .error _ => false
    else false

/-- does `is_then_cast` return a reference (stat.rs:332-340)? -/
def castStatYes (p : PairSlot E) {T : E.S} (x : E.Sel T) : Bool :=
  match validate (E.statLayout T) with
  | .error _ => false
  | .ok _ => p.stat.eq A (E.asEntry x)

/-- `into_result` takes the pair; the value is handed out or, with the pair, forgotten (stat.rs:343-350,
buffer.rs:51-55) -/
def takeOut (h : Heap E.U) (p : PairSlot E) (T : E.S) : Heap E.U :=
  match validate (E.statLayout T) with
  | .error _ => h
  | .ok _ =>
    if A.at_ p.stat.vt = A.at_ T then
      match validate (E.layout (E.valTy T)) with
      | .error _ => h
      | .ok _ => h.move p.cell (E.valTy T)
    else h

/-- `StatValuePair::new` into a new variable -/
def push (st : PairState E) (s : StatInst E) : Heap E.U × Option Cell → PairState E
  | (h, some x) => { st with heap := h, slots := st.slots ++ [some ⟨s, x, 0⟩] }
  | (h, none) => { st with heap := h }

/-- `StatValuePair::new` into an existing variable: the old pair goes out of scope -/
def replace (st : PairState E) (i : Nat) (p : PairSlot E) (s : StatInst E) : Heap E.U × Option Cell → PairState E
  | (h, some x) => { st with heap := h, slots := st.slots.set i (some ⟨s, x, p.tag + 1⟩) }
  | (h, none) => { st with heap := h }

/-- one step -/
def step (st : PairState E) : PairOp E → Res (PairState E)
  | .new s => .ok (st.push s (st.heap.alloc s.ty))
  | .look i =>
    match st.at_ i with
    | some p => .ok { st with heap := st.heap.use p.cell p.stat.ty, slots := st.slots.set i (some { p with tag := p.tag + 1 }) }
    | none => .ok st
  | .cast v i T =>
    match st.at_ i with
    | some p => .ok (st.bind v i p T (castYes A p T))
    | none => .ok (st.unbind v)
  | .castStat v i T x =>
    match st.at_ i with
    | some p => .ok (st.bind v i p T (castStatYes A p x))
    | none => .ok (st.unbind v)
  | .use v =>
    match st.refs v with
    | none => .ok st
    | some r =>
      match st.at_ r.slot with
      | some p => if p.tag = r.tag then .ok { st with heap := st.heap.use p.cell r.ty } else .error .ub
      | none => .error .ub
  | .intoResult i T =>
    match st.at_ i with
    | some p => .ok { st with heap := takeOut A st.heap p T, slots := st.slots.set i none }
    | none => .ok st
  | .assign i s =>
    match st.at_ i with
    | some p => .ok (st.replace i p s (st.heap.alloc s.ty))
    | none => .ok st
  | .move i =>
    match st.at_ i with
    | some p => .ok { st with slots := st.slots.set i none ++ [some { p with tag := 0 }] }
    | none => .ok st
  | .drop i => .ok { st with slots := st.slots.set i none }

def runFrom (st : PairState E) : List (PairOp E) → Res (PairState E)
  | [] => .ok st
  | o :: os => st.step A o >>= fun st' => st'.runFrom os

def run (os : List (PairOp E)) : Res (PairState E) := init.runFrom A os

end PairState
end BSQ
