import Verif.Spec.Multimap
/-!
# Qualifier types whose `Ord` is wrong

`QualifierFlag` asks for `Ord` (qualifier.rs:16), a safe trait: nothing stops an implementation from being
inconsistent, or from answering differently each time.  What can still be said about a `StatMap` then: it is a bag of
keyed values, and a call for one key acts on some value *of the same stat*, if on any.
-/
namespace BSQ
variable {E : Env} {Q : Type}

namespace Bag

/-- one of the values of the stat, under whatever qualifier, is replaced by `f` of it -/
def ReplacedOf (b b' : Bag E Q) (s : StatInst E) (f : s.Val → Res s.Val) : Prop :=
  ∃ q v v' r, b = (⟨⟨s, q⟩, v⟩ : Keyed E Q) ::ₘ r ∧ f v = .ok v' ∧ b' = (⟨⟨s, q⟩, v'⟩ : Keyed E Q) ::ₘ r

/-- a new entry, perhaps beside one with the same key -/
def AddedTo (b b' : Bag E Q) (k : Key E Q) (v : k.Val) : Prop :=
  Storable (E.layout k.stat.ty) ∧ b' = (⟨k, v⟩ : Keyed E Q) ::ₘ b

/-- what a call that returns may do -/
def LooseStep (b b' : Bag E Q) : MapOp E Q → Prop
  | .insert q s v => Storable (E.layout s.ty) ∧ (ReplacedOf b b' s (fun _ => .ok v) ∨ AddedTo b b' ⟨s, q⟩ v)
  | .insertBase q s x => Storable (E.layout s.ty) ∧
      (ReplacedOf b b' s (fun _ => .ok (s.sv.fromBase x)) ∨ AddedTo b b' ⟨s, q⟩ (s.sv.fromBase x))
  | .modify q s o => ReplacedOf b b' s o.writeTo ∨ ∃ v, o.writeTo s.sv.default = .ok v ∧ AddedTo b b' ⟨s, q⟩ v
  | .modifyWith q s f => ReplacedOf b b' s f ∨ ∃ v, f s.sv.default = .ok v ∧ AddedTo b b' ⟨s, q⟩ v
  | .getMut _ s f => ReplacedOf b b' s f ∨ b' = b
  | .iterMut s f => b' = b.map (touch s f)
  | .remove _ s => (∃ q v, b = (⟨⟨s, q⟩, v⟩ : Keyed E Q) ::ₘ b') ∨ b' = b
  | .removeAll s => b' = b.filter (fun x => x.1.stat ≠ s)
  | .clear => b' = 0

/-- when a call does not return: values of the stat cannot be stored, or the caller's own code failed, on the default
or on a stored value of the stat -/
def LooseFails (b : Bag E Q) (e : Err) : MapOp E Q → Prop
  | .insert _ s _ => ¬ Storable (E.layout s.ty) ∧ e = .panic
  | .insertBase _ s _ => ¬ Storable (E.layout s.ty) ∧ e = .panic
  | .modify _ s o => (∃ q v, (⟨⟨s, q⟩, v⟩ : Keyed E Q) ∈ b ∧ o.writeTo v = .error e) ∨
      StoreFails s (o.writeTo s.sv.default) e
  | .modifyWith _ s f => (∃ q v, (⟨⟨s, q⟩, v⟩ : Keyed E Q) ∈ b ∧ f v = .error e) ∨ StoreFails s (f s.sv.default) e
  | .getMut _ s f => ∃ q v, (⟨⟨s, q⟩, v⟩ : Keyed E Q) ∈ b ∧ f v = .error e
  | .iterMut _ _ | .remove _ _ | .removeAll _ | .clear => False

/-- a history that returns, from one bag to another -/
inductive LooseRun : Bag E Q → List (MapOp E Q) → Bag E Q → Prop
  | nil (b) : LooseRun b [] b
  | cons {b b' b'' o os} : LooseStep b b' o → LooseRun b' os b'' → LooseRun b (o :: os) b''

/-- what the reading methods show of the contents, whatever `Ord` they are called with -/
structure LooseSeen (A : Addr E) (m : StatMap E Q) (b : Bag E Q) : Prop where
  len : StatMap.len m = b.card
  isEmpty : StatMap.isEmpty m = true ↔ b = 0
  /-- `get` gives nothing or some value of the stat -/
  get : ∀ (_ : Ord Q) q s, ∃ r, StatMap.get A m q s = .ok r ∧
    ∀ v, r = some v → ∃ q', (⟨⟨s, q'⟩, v⟩ : Keyed E Q) ∈ b
  /-- `iter` gives all entries of the stat, and only those -/
  iter : ∀ (_ : Ord Q) s, ∃ L : List (Qualifier Q × s.Val), StatMap.iter A m s = .ok L ∧
    (↑(L.map fun p => (⟨⟨s, p.1⟩, p.2⟩ : Keyed E Q)) : Bag E Q) = b.filter (fun x => x.1.stat = s)

end Bag

/-- A history of calls on the code.  Each call comes with the answers that comparisons of qualifiers give during it. -/
def StatMap.ordRun (A : Addr E) (m : StatMap E Q) : List (Ord Q × MapOp E Q) → Res (StatMap E Q)
  | [] => .ok m
  | (i, o) :: os => (letI := i; StatMap.step A m o) >>= fun m' => ordRun A m' os

end BSQ
