import Verif.Spec.Multimap
import Verif.Model.Unwind
import Verif.Model.Serde
/-!
# What maps in any order hold, and what calls may do to them
-/
namespace BSQ
variable {E : Env} {Q : Type}

/-- the vector consists of exactly these keyed values, in whatever order -/
def StatMap.Holds (m : StatMap E Q) (b : Bag E Q) : Prop :=
  ∃ l : List (Keyed E Q), (↑l : Bag E Q) = b ∧
    m = l.map (fun x => ⟨x.1.stat, x.1.qual, .val x.1.stat.ty x.2⟩) ∧ ∀ x ∈ l, Storable (E.layout x.1.stat.ty)

/-- one value more under the key, whether or not there is one already -/
def Bag.OneMore (b b' : Bag E Q) (k : Key E Q) (v : k.Val) : Prop :=
  Storable (E.layout k.stat.ty) ∧ b' = (⟨k, v⟩ : Keyed E Q) ::ₘ b

/-- what a call that returns may do to a map in any order.  Nothing is said of `iter_mut`, which may misread. -/
def Bag.UnorderedStep (b b' : Bag E Q) : MultiOp E Q → Prop
  | .one (.insert q s v) => Replaced b b' ⟨s, q⟩ (fun _ => .ok v) ∨ OneMore b b' ⟨s, q⟩ v
  | .one (.insertBase q s x) =>
      Replaced b b' ⟨s, q⟩ (fun _ => .ok (s.sv.fromBase x)) ∨ OneMore b b' ⟨s, q⟩ (s.sv.fromBase x)
  | .one (.modify q s o) =>
      Replaced b b' ⟨s, q⟩ o.writeTo ∨ ∃ v, o.writeTo s.sv.default = .ok v ∧ OneMore b b' ⟨s, q⟩ v
  | .one (.modifyWith q s f) => Replaced b b' ⟨s, q⟩ f ∨ ∃ v, f s.sv.default = .ok v ∧ OneMore b b' ⟨s, q⟩ v
  | .one (.getMut q s f) => Replaced b b' ⟨s, q⟩ f ∨ b' = b
  | .one (.remove q s) => (∃ v, b = (⟨⟨s, q⟩, v⟩ : Keyed E Q) ::ₘ b') ∨ b' = b
  | .one (.removeAll s) => b' ≤ b ∧ ((∀ x ∈ b, x.1.stat ≠ s) → b' = b)
  | .one .clear => b' = 0
  | .one (.iterMut _ _) => True
  | .extend T items => b' = b + ofItems T items
  | .collect T items => b' = ofItems T items

/-- when a call does not return: values of the stat cannot be stored, or the caller's own code failed -/
def Bag.UnorderedFails (b : Bag E Q) (e : Err) : MultiOp E Q → Prop
  | .one (.insert _ s _) => ¬ Storable (E.layout s.ty) ∧ e = .panic
  | .one (.insertBase _ s _) => ¬ Storable (E.layout s.ty) ∧ e = .panic
  | .one (.modify q s o) => (∃ v, (⟨⟨s, q⟩, v⟩ : Keyed E Q) ∈ b ∧ o.writeTo v = .error e) ∨
      StoreFails s (o.writeTo s.sv.default) e
  | .one (.modifyWith q s f) => (∃ v, (⟨⟨s, q⟩, v⟩ : Keyed E Q) ∈ b ∧ f v = .error e) ∨
      StoreFails s (f s.sv.default) e
  | .one (.getMut q s f) => ∃ v, (⟨⟨s, q⟩, v⟩ : Keyed E Q) ∈ b ∧ f v = .error e
  | .one (.iterMut _ _) => True
  | .one (.remove _ _) | .one (.removeAll _) | .one .clear => False
  | .extend T items => items ≠ [] ∧ ¬ Storable (E.layout (E.valTy T)) ∧ e = .panic
  | .collect T items => items ≠ [] ∧ ¬ Storable (E.layout (E.valTy T)) ∧ e = .panic

/-- calls other than `iter_mut` -/
def MultiOp.NotIterMut : MultiOp E Q → Prop
  | .one (.iterMut _ _) => False
  | _ => True

/-- Maps reached, from the empty one or one loaded from whatever data, by calls that return, except `iter_mut`, and
by caught panics: in the iterator given to `extend`, or
in code that holds a `&mut` from a keyed call and has written some value.  (Other calls that panic leave the map as
it was, or as if they had returned: Model/Unwind.lean.) -/
inductive ReachedUnordered [DecidableEq Q] [Ord Q] (A : Addr E) : StatMap E Q → Prop where
  | new : ReachedUnordered A StatMap.new
  | load (X : Serde E Q) (sc : DeScope E) (d : Data) (m : StatMap E Q) (h : X.deMap sc d = .ok (some m)) :
      ReachedUnordered A m
  | ret (m m' : StatMap E Q) (o : MultiOp E Q) (ho : o.NotIterMut) (h : ReachedUnordered A m)
      (hs : StatMap.multiStep A m o = .ok m') : ReachedUnordered A m'
  | extend (m m' : StatMap E Q) (h : ReachedUnordered A m) (T : E.S)
      (items : List (Qualifier Q × Nat × E.El (E.valTy T))) (hi : InterruptedExtend T items m m') :
      ReachedUnordered A m'
  | write (m : StatMap E Q) (q : Qualifier Q) (s : StatInst E) (v v' : s.Val) (h : ReachedUnordered A m)
      (hg : StatMap.get A m q s = .ok (some v)) : ReachedUnordered A (m.update A q s (.val s.ty v'))

end BSQ
