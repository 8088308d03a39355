import Verif.Model.LibMap
import Verif.Spec.Multimap
import Mathlib.Data.List.Sort
/-!
# What the Rust documentation promises about slice algorithms
-/
namespace BSQ
variable {E : Env} {Q : Type}

/-- The contracts of `binary_search_by`, `partition_point` and `sort_by`. -/
structure SliceLib.Lawful (S : SliceLib) : Prop where
  /-- in a slice of smaller, then equal, then greater elements: "If the value is found then `Result::Ok` is returned,
  containing the index of the matching element.  If there are multiple matches, then any one of the matches could be
  returned." -/
  found : ∀ {α : Type} (f : α → Ordering) (a b c : List α), (∀ x ∈ a, f x = .lt) → (∀ x ∈ b, f x = .eq) →
    (∀ x ∈ c, f x = .gt) → b ≠ [] →
    ∃ (b₁ : List α) (x : α) (b₂ : List α), b = b₁ ++ x :: b₂ ∧ S.search (a ++ (b ++ c)) f = .ok (a.length + b₁.length)
  /-- "If the value is not found then `Result::Err` is returned, containing the index where a matching element could be
  inserted while maintaining sorted order." -/
  absent : ∀ {α : Type} (f : α → Ordering) (a c : List α), (∀ x ∈ a, f x = .lt) → (∀ x ∈ c, f x = .gt) →
    S.search (a ++ c) f = .error a.length
  /-- "Returns the index of the partition point according to the given predicate (the index of the first element of the
  second partition).  The slice is assumed to be partitioned." -/
  partition : ∀ {α : Type} (p : α → Bool) (a c : List α), (∀ x ∈ a, p x = true) → (∀ x ∈ c, p x = false) →
    S.partition (a ++ c) p = a.length
  /-- "Sorts the slice in ascending order with a comparison function, preserving initial order of equal elements", for
  total orders -/
  sort : ∀ {α : Type} (c : α → α → Ordering) [Std.TransCmp c] (l : List α),
    (S.sort l c).Perm l ∧ (S.sort l c).Pairwise (fun a b => c a b ≠ .gt) ∧
    ∀ x, (S.sort l c).filter (fun y => c x y == .eq) = l.filter (fun y => c x y == .eq)

/-- another lawful library: it looks for the first element that is not smaller, one by one, and sorts by insertion -/
def SliceLib.linear : SliceLib where
  search l f :=
    match l.dropWhile (fun x => f x == .lt) with
    | [] => .error l.length
    | x :: r => if f x = .eq then .ok (l.length - (r.length + 1)) else .error (l.length - (r.length + 1))
  partition l p := (l.takeWhile p).length
  sort l c := l.insertionSort (fun a b => c a b ≠ .gt)

namespace LibMap
variable (S : SliceLib) [Ord Q] (A : Addr E)

/-- one call -/
def step (m : StatMap E Q) : MapOp E Q → Res (StatMap E Q)
  | .insert q s v => insert S A m q s v
  | .insertBase q s b => insert S A m q s (s.sv.fromBase b)
  | .modify q s o => modifyWith S A m q s o.writeTo
  | .modifyWith q s f => modifyWith S A m q s f
  | .getMut q s f => getMut S A m q s f
  | .iterMut s f => iterMut S A m s (fun v => .ok (f v))
  | .remove q s => remove S A m q s >>= fun r => .ok r.1
  | .removeAll s => removeAll S A m s
  | .clear => StatMap.clear m

/-- one call, the ones adding many items included -/
def multiStep (m : StatMap E Q) : MultiOp E Q → Res (StatMap E Q)
  | .one o => step S A m o
  | .extend T items => extend S A m T items
  | .collect T items => extend S A [] T items

/-- a history of calls -/
def run (m : StatMap E Q) : List (MapOp E Q) → Res (StatMap E Q)
  | [] => .ok m
  | o :: os => step S A m o >>= fun m' => run m' os

/-- a history of calls, the ones adding many items included -/
def multiRun (m : StatMap E Q) : List (MultiOp E Q) → Res (StatMap E Q)
  | [] => .ok m
  | o :: os => multiStep S A m o >>= fun m' => multiRun m' os

/-- what the reading methods show of the contents (as `Bag.Seen`) -/
structure Seen (m : StatMap E Q) (b : Bag E Q) : Prop where
  len : StatMap.len m = b.card
  isEmpty : StatMap.isEmpty m = true ↔ b = 0
  get_absent : ∀ q s, b.Absent ⟨s, q⟩ → get S A m q s = .ok none
  get_some : ∀ q s, ¬ b.Absent ⟨s, q⟩ → ∃ v, (⟨⟨s, q⟩, v⟩ : Keyed E Q) ∈ b ∧ get S A m q s = .ok (some v)
  iter : ∀ s, ∃ L : List (Qualifier Q × s.Val), iter S A m s = .ok L ∧
    (L.map (·.1)).Pairwise (fun x y => ¬ KeyBefore.QualBefore y x) ∧
    (↑(L.map fun p => (⟨⟨s, p.1⟩, p.2⟩ : Keyed E Q)) : Bag E Q) = b.filter (fun x => x.1.stat = s)

end LibMap
end BSQ
