import Verif.Spec.StatMap
import Mathlib.Data.List.Forall2
/-!
# `StatMap` after a caught panic  (src/stat_map.rs)

A panic raised by user code inside a call may be caught (`catch_unwind`, a joined thread), after which the map is
still there.  `Interrupted` lists, per method, the maps that can be left behind; a value that user code was
modifying through `&mut` may then be any value of its type.  Panicking comparisons of qualifiers (a user `Ord`)
and panicking allocations are not modelled.
-/
namespace BSQ
variable {E : Env} {Q : Type} [Ord Q] (A : Addr E)

/-- `Interrupted A m K m'`: a call about the keys `K` on `m` panicked and left `m'`. -/
inductive Interrupted : StatMap E Q → (Key E Q → Prop) → StatMap E Q → Prop where
  /-- `insert`/`insert_base` (stat_map.rs:166-202): `Buffer::from` (and `from_base`) panics before the vector is
  touched -/
  | insert (m : StatMap E Q) (q : Qualifier Q) (s : StatInst E) : Interrupted m (· = ⟨s, q⟩) m
  /-- `modify`/`modify_with` of an absent key (stat_map.rs:301-312, 329-340): `into_stat`, the closure or
  `Buffer::from` panics before the vector is touched -/
  | absent (m : StatMap E Q) (q : Qualifier Q) (s : StatInst E) (h : StatMap.get A m q s = .ok none) :
      Interrupted m (· = ⟨s, q⟩) m
  /-- `get_mut`, `modify`, `modify_with` of a present key (stat_map.rs:220, 300, 328): the code holding the
  `&mut` panics, having written some value -/
  | present (m : StatMap E Q) (q : Qualifier Q) (s : StatInst E) (v v' : s.Val)
      (h : StatMap.get A m q s = .ok (some v)) :
      Interrupted m (· = ⟨s, q⟩) (m.update A q s (.val s.ty v'))
  /-- `iter_mut` (stat_map.rs:271-279): some of the values of the slice have been written -/
  | iterMut (m : StatMap E Q) (s : StatInst E) (mid : StatMap E Q)
      (hr : (m.range A s).1 ≤ (m.range A s).2)
      (h : List.Forall₂ (fun e e' => e'.stat = e.stat ∧ e'.qual = e.qual ∧
        (e'.buf = e.buf ∨ ∃ v' : s.Val, e'.buf = .val s.ty v'))
        ((m.take (m.range A s).2).drop (m.range A s).1) mid) :
      Interrupted m (·.stat = s) (m.take (m.range A s).1 ++ mid ++ m.drop (m.range A s).2)
  /-- `remove_all` (stat_map.rs:282-287): a destructor panics; `Drain`'s drop guard still drops the other drained
  entries and closes the gap -/
  | removeAll (m m' : StatMap E Q) (s : StatInst E) (h : StatMap.removeAll A m s = .ok m') :
      Interrupted m (·.stat = s) m'
  /-- `clear` (stat_map.rs:140-142): a destructor panics; `Vec::clear` has set the length to 0 beforehand -/
  | clear (m : StatMap E Q) : Interrupted m (fun _ => True) []
  /-- reading calls, `clone`, `remove` of an absent key: nothing changes -/
  | none (m : StatMap E Q) : Interrupted m (fun _ => False) m

/-- `extend` (stat_map.rs:119-132) over an iterator that panics after yielding `items`: `Vec::extend` has pushed
them, and `sort_by` is not reached. -/
inductive InterruptedExtend (T : E.S) (items : List (Qualifier Q × Nat × E.El (E.valTy T))) :
    StatMap E Q → StatMap E Q → Prop where
  | mk (m : StatMap E Q) (l : List (Entry E Q (Buf E))) (h : StatMap.entries T items = .ok l) :
      InterruptedExtend T items m (m ++ l)

/-- A map obtained from the empty one by calls that return and calls whose panic is caught. -/
inductive Survives : StatMap E Q → Prop where
  | new : Survives StatMap.new
  | ret (m m' : StatMap E Q) (o : MapOp E Q) (h : Survives m) (hs : StatMap.step A m o = .ok m') : Survives m'
  | caught (m m' : StatMap E Q) (K : Key E Q → Prop) (h : Survives m) (hi : Interrupted A m K m') : Survives m'

end BSQ
