import Verif.Spec.StatMap
import Verif.Spec.Misc
import Mathlib.Data.Multiset.Filter
/-!
# What a `StatMap` is when keys are repeated: a multimap

`from_iter` and `extend` do not look for repeated keys.  The state is then a bag of keyed values; operations on a
key act on one of the values under it, without saying which.
-/
namespace BSQ
variable {E : Env} {Q : Type}

/-- a value with its key -/
abbrev Keyed (E : Env) (Q : Type) := (k : Key E Q) × k.Val

/-- the contents -/
abbrev Bag (E : Env) (Q : Type) := Multiset (Keyed E Q)

/-- the calls of `MapOp`, and those that add many items -/
inductive MultiOp (E : Env) (Q : Type) where
  | one (o : MapOp E Q)
  | extend (T : E.S) (items : List (Qualifier Q × Nat × E.El (E.valTy T)))
  | collect (T : E.S) (items : List (Qualifier Q × Nat × E.El (E.valTy T)))

namespace Bag

/-- nothing is stored under the key -/
def Absent (b : Bag E Q) (k : Key E Q) : Prop := ∀ x ∈ b, x.1 ≠ k

/-- one of the values under the key is replaced by `f` of it -/
def Replaced (b b' : Bag E Q) (k : Key E Q) (f : k.Val → Res k.Val) : Prop :=
  ∃ v v' r, b = (⟨k, v⟩ : Keyed E Q) ::ₘ r ∧ f v = .ok v' ∧ b' = (⟨k, v'⟩ : Keyed E Q) ::ₘ r

/-- a new entry -/
def Added (b b' : Bag E Q) (k : Key E Q) (v : k.Val) : Prop :=
  b.Absent k ∧ Storable (E.layout k.stat.ty) ∧ b' = (⟨k, v⟩ : Keyed E Q) ::ₘ b

/-- apply a function to a value if it belongs to the stat -/
def touch (s : StatInst E) (f : s.Val → s.Val) : Keyed E Q → Keyed E Q
  | ⟨⟨t, q⟩, v⟩ => if h : t = s then ⟨⟨s, q⟩, f (h ▸ v)⟩ else ⟨⟨t, q⟩, v⟩

/-- items as keyed values -/
def ofItems (T : E.S) (items : List (Qualifier Q × Nat × E.El (E.valTy T))) : Bag E Q :=
  ↑(items.map fun t => (⟨⟨⟨T, t.2.1⟩, t.1⟩, t.2.2⟩ : Keyed E Q))

/-- what a call that returns may do -/
def Step (b b' : Bag E Q) : MapOp E Q → Prop
  | .insert q s v => Storable (E.layout s.ty) ∧ (Replaced b b' ⟨s, q⟩ (fun _ => .ok v) ∨ Added b b' ⟨s, q⟩ v)
  | .insertBase q s x => Storable (E.layout s.ty) ∧
      (Replaced b b' ⟨s, q⟩ (fun _ => .ok (s.sv.fromBase x)) ∨ Added b b' ⟨s, q⟩ (s.sv.fromBase x))
  | .modify q s o => Replaced b b' ⟨s, q⟩ o.writeTo ∨ ∃ v, o.writeTo s.sv.default = .ok v ∧ Added b b' ⟨s, q⟩ v
  | .modifyWith q s f => Replaced b b' ⟨s, q⟩ f ∨ ∃ v, f s.sv.default = .ok v ∧ Added b b' ⟨s, q⟩ v
  | .getMut q s f => Replaced b b' ⟨s, q⟩ f ∨ (b.Absent ⟨s, q⟩ ∧ b' = b)
  | .iterMut s f => b' = b.map (touch s f)
  | .remove q s => (∃ v, b = (⟨⟨s, q⟩, v⟩ : Keyed E Q) ::ₘ b') ∨ (b.Absent ⟨s, q⟩ ∧ b' = b)
  | .removeAll s => b' = b.filter (fun x => x.1.stat ≠ s)
  | .clear => b' = 0

/-- storing under an absent key fails -/
def StoreFails (s : StatInst E) (x : Res s.Val) (e : Err) : Prop :=
  x = .error e ∨ (x.isOk ∧ ¬ Storable (E.layout s.ty) ∧ e = .panic)

/-- when a call does not return: values of the stat cannot be stored, or the caller's own code failed -/
def Fails (b : Bag E Q) (e : Err) : MapOp E Q → Prop
  | .insert _ s _ => ¬ Storable (E.layout s.ty) ∧ e = .panic
  | .insertBase _ s _ => ¬ Storable (E.layout s.ty) ∧ e = .panic
  | .modify q s o => (∃ v, (⟨⟨s, q⟩, v⟩ : Keyed E Q) ∈ b ∧ o.writeTo v = .error e) ∨
      (b.Absent ⟨s, q⟩ ∧ StoreFails s (o.writeTo s.sv.default) e)
  | .modifyWith q s f => (∃ v, (⟨⟨s, q⟩, v⟩ : Keyed E Q) ∈ b ∧ f v = .error e) ∨
      (b.Absent ⟨s, q⟩ ∧ StoreFails s (f s.sv.default) e)
  | .getMut q s f => ∃ v, (⟨⟨s, q⟩, v⟩ : Keyed E Q) ∈ b ∧ f v = .error e
  | .iterMut _ _ | .remove _ _ | .removeAll _ | .clear => False

/-- a call that returns, the ones adding many items included -/
def MultiStep (b b' : Bag E Q) : MultiOp E Q → Prop
  | .one o => b.Step b' o
  | .extend T items => (items = [] ∨ Storable (E.layout (E.valTy T))) ∧ b' = b + ofItems T items
  | .collect T items => (items = [] ∨ Storable (E.layout (E.valTy T))) ∧ b' = ofItems T items

/-- a call that does not return -/
def MultiFails (b : Bag E Q) (e : Err) : MultiOp E Q → Prop
  | .one o => b.Fails e o
  | .extend T items => items ≠ [] ∧ ¬ Storable (E.layout (E.valTy T)) ∧ e = .panic
  | .collect T items => items ≠ [] ∧ ¬ Storable (E.layout (E.valTy T)) ∧ e = .panic

/-- a history that returns, from one bag to another -/
inductive Run : Bag E Q → List (MultiOp E Q) → Bag E Q → Prop
  | nil (b) : Run b [] b
  | cons {b b' b'' o os} : MultiStep b b' o → Run b' os b'' → Run b (o :: os) b''

end Bag

namespace StatMap
variable [Ord Q] (A : Addr E)

/-- the same calls on the code; `collect` builds a new map -/
def multiStep (m : StatMap E Q) : MultiOp E Q → Res (StatMap E Q)
  | .one o => step A m o
  | .extend T items => extend A m T items
  | .collect T items => fromIter A T items

/-- a history of calls -/
def multiRun (m : StatMap E Q) : List (MultiOp E Q) → Res (StatMap E Q)
  | [] => .ok m
  | o :: os => multiStep A m o >>= fun m' => multiRun m' os
end StatMap
end BSQ

namespace BSQ
variable {E : Env} {Q : Type} [Ord Q]

/-- what the reading methods show of the contents -/
structure Bag.Seen (A : Addr E) (m : StatMap E Q) (b : Bag E Q) : Prop where
  len : StatMap.len m = b.card
  isEmpty : StatMap.isEmpty m = true ↔ b = 0
  get_absent : ∀ q s, b.Absent ⟨s, q⟩ → StatMap.get A m q s = .ok none
  get_some : ∀ q s, ¬ b.Absent ⟨s, q⟩ → ∃ v, (⟨⟨s, q⟩, v⟩ : Keyed E Q) ∈ b ∧ StatMap.get A m q s = .ok (some v)
  /-- all entries of the stat, in ascending order of qualifiers -/
  iter : ∀ s, ∃ L : List (Qualifier Q × s.Val), StatMap.iter A m s = .ok L ∧
    (L.map (·.1)).Pairwise (fun x y => ¬ KeyBefore.QualBefore y x) ∧
    (↑(L.map fun p => (⟨⟨s, p.1⟩, p.2⟩ : Keyed E Q)) : Bag E Q) = b.filter (fun x => x.1.stat = s)
end BSQ
