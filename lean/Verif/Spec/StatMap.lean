import Verif.Model.StatMap
/-!
# What a `StatMap` should be: a plain finite map

A map from keys (stat and qualifier) to values is a function; operations are function updates.  Nothing here
refers to vectors, orders or buffers.
-/
namespace BSQ
variable {E : Env} {Q : Type}

/-- types that may be stored: alignment 1, 2, 4 or 8 and at most 24 bytes -/
def Storable (l : Layout) : Prop := (l.align = 1 ∨ l.align = 2 ∨ l.align = 4 ∨ l.align = 8) ∧ l.size ≤ 24

instance (l : Layout) : Decidable (Storable l) := by unfold Storable; infer_instance

/-- a key of the map -/
structure Key (E : Env) (Q : Type) where
  stat : StatInst E
  qual : Qualifier Q
  deriving DecidableEq

abbrev Key.Val (k : Key E Q) : Type := k.stat.Val

/-- one call on a `StatMap`; closures may panic, except the one given to `iter_mut` -/
inductive MapOp (E : Env) (Q : Type) where
  | insert (q : Qualifier Q) (s : StatInst E) (v : s.Val)
  | insertBase (q : Qualifier Q) (s : StatInst E) (b : s.sv.BaseT)
  | modify (q : Qualifier Q) (s : StatInst E) (o : StatOp s.sv)
  | modifyWith (q : Qualifier Q) (s : StatInst E) (f : s.Val → Res s.Val)
  | getMut (q : Qualifier Q) (s : StatInst E) (f : s.Val → Res s.Val)
  | iterMut (s : StatInst E) (f : s.Val → s.Val)
  | remove (q : Qualifier Q) (s : StatInst E)
  | removeAll (s : StatInst E)
  | clear

/-- a plain map -/
abbrev PMap (E : Env) (Q : Type) := (k : Key E Q) → Option k.Val

namespace PMap
variable [DecidableEq Q]

def empty : PMap E Q := fun _ => none

/-- bind a key -/
def set (m : PMap E Q) (k : Key E Q) (v : k.Val) : PMap E Q :=
  fun j => if h : j = k then some (h ▸ v) else m j

/-- unbind a key -/
def unset (m : PMap E Q) (k : Key E Q) : PMap E Q := fun j => if j = k then none else m j

/-- bind a key, which panics when values of its stat cannot be stored -/
def store (m : PMap E Q) (k : Key E Q) (v : k.Val) : Res (PMap E Q) :=
  if Storable (E.layout k.stat.ty) then .ok (m.set k v) else .error .panic

/-- apply a function to all values of one stat -/
def mapStat (m : PMap E Q) (s : StatInst E) (f : s.Val → s.Val) : PMap E Q
  | ⟨t, q⟩ => if h : t = s then by subst h; exact (m ⟨t, q⟩).map f else m ⟨t, q⟩

/-- the meaning of each call -/
def step (m : PMap E Q) : MapOp E Q → Res (PMap E Q)
  | .insert q s v => m.store ⟨s, q⟩ v
  | .insertBase q s b => m.store ⟨s, q⟩ (s.sv.fromBase b)
  | .modify q s o =>
    match m ⟨s, q⟩ with
    | some v => o.writeTo v >>= fun v' => .ok (m.set ⟨s, q⟩ v')
    | none => o.writeTo s.sv.default >>= fun v' => m.store ⟨s, q⟩ v'
  | .modifyWith q s f =>
    match m ⟨s, q⟩ with
    | some v => f v >>= fun v' => .ok (m.set ⟨s, q⟩ v')
    | none => f s.sv.default >>= fun v' => m.store ⟨s, q⟩ v'
  | .getMut q s f =>
    match m ⟨s, q⟩ with
    | some v => f v >>= fun v' => .ok (m.set ⟨s, q⟩ v')
    | none => .ok m
  | .iterMut s f => .ok (m.mapStat s f)
  | .remove q s => .ok (m.unset ⟨s, q⟩)
  | .removeAll s => .ok (fun k => if k.stat = s then none else m k)
  | .clear => .ok empty

/-- a whole history, starting from a given map -/
def runFrom (m : PMap E Q) : List (MapOp E Q) → Res (PMap E Q)
  | [] => .ok m
  | o :: os => m.step o >>= fun m' => m'.runFrom os

/-- a history starting from the empty map -/
def run (os : List (MapOp E Q)) : Res (PMap E Q) := empty.runFrom os

/-- `n` keys are bound -/
def HasSize (m : PMap E Q) (n : Nat) : Prop :=
  ∃ ks : List (Key E Q), ks.Nodup ∧ (∀ k, k ∈ ks ↔ (m k).isSome) ∧ ks.length = n

end PMap

/-! the same histories, run on the code -/
namespace StatMap
variable [Ord Q] (A : Addr E)

def step (m : StatMap E Q) : MapOp E Q → Res (StatMap E Q)
  | .insert q s v => insert A m q s v
  | .insertBase q s b => insertBase A m q s b
  | .modify q s o => modify A m q s o
  | .modifyWith q s f => modifyWith A m q s f
  | .getMut q s f => getMut A m q s f
  | .iterMut s f => iterMut A m s (fun v => .ok (f v))
  | .remove q s => remove A m q s >>= fun r => .ok r.1
  | .removeAll s => removeAll A m s
  | .clear => clear m

def runFrom (m : StatMap E Q) : List (MapOp E Q) → Res (StatMap E Q)
  | [] => .ok m
  | o :: os => step A m o >>= fun m' => runFrom m' os

def run (os : List (MapOp E Q)) : Res (StatMap E Q) := runFrom A new os
end StatMap
end BSQ

namespace BSQ
variable {E : Env} {Q : Type}

/-- the documented key order: stat first (by the position of its type's vtable, then by index), then
qualifier -/
def KeyBefore [Ord Q] (A : Addr E) (a b : Key E Q) : Prop :=
  A.at_ a.stat.vt < A.at_ b.stat.vt ∨
  (a.stat.vt = b.stat.vt ∧
    (a.stat.index < b.stat.index ∨
      (a.stat.index = b.stat.index ∧ QualBefore a.qual b.qual)))
where
  /-- qualifiers are ordered by `any_of`, then `all_of` -/
  QualBefore (a b : Qualifier Q) : Prop :=
    compare a.anyOf b.anyOf = .lt ∨ (a.anyOf = b.anyOf ∧ compare a.allOf b.allOf = .lt)

/-- the key an operation is about, if it is about one key -/
def MapOp.key : MapOp E Q → Option (Key E Q)
  | .insert q s _ | .insertBase q s _ | .modify q s _ | .modifyWith q s _ | .getMut q s _ | .remove q s =>
    some ⟨s, q⟩
  | .iterMut _ _ | .removeAll _ | .clear => none

/-- the program's own code never performs undefined behaviour -/
structure Env.NoUb (E : Env) : Prop where
  write : ∀ u (o : StatOp (E.sv u)) v, o.writeTo v ≠ .error .ub
  join : ∀ u a b, (E.sv u).join a b ≠ .error .ub
  eval : ∀ u v, (E.sv u).eval v ≠ .error .ub

/-- the closures passed to an operation never perform undefined behaviour -/
def MapOp.NoUb : MapOp E Q → Prop
  | .modifyWith _ _ f => ∀ v, f v ≠ .error .ub
  | .getMut _ _ f => ∀ v, f v ≠ .error .ub
  | _ => True

/-- a list of insertions as a history -/
def MapOp.inserts (ts : List ((k : Key E Q) × k.Val)) : List (MapOp E Q) :=
  ts.map (fun t => .insert t.1.qual t.1.stat t.2)

/-- the items of `from_iter` / `extend` as insertions -/
def MapOp.insertItems (T : E.S) (items : List (Qualifier Q × Nat × E.El (E.valTy T))) : List (MapOp E Q) :=
  items.map (fun t => .insert t.1 ⟨T, t.2.1⟩ t.2.2)
end BSQ
