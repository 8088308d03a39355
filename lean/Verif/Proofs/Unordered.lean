import Verif.Spec.Unordered
/-! Helper lemmas about assembly trees and contribution lists. -/
namespace BSQ
open Contrib

namespace Tree
variable {V : Type} {D : StatValue V} {C : Type}

/-- Representation induction: if a relation between values and contribution lists is kept by the
operations, every assembled value represents the contributions of its tree. -/
theorem run_rep (Rep : V → List (StatOp D) → Prop) (okOp : StatOp D → Prop)
    (hd : Rep D.default [])
    (hb : ∀ b, okOp (.base b) → Rep (D.fromBase b) [.base b])
    (ho : ∀ v L o v', ¬ o.IsBase → okOp o → Rep v L → o.writeTo v = .ok v' → Rep v' (L ++ [o]))
    (hj : ∀ a b L K v, Rep a L → Rep b K → D.join a b = .ok v → Rep v (L ++ K)) :
    ∀ (t : Tree D) (v : V), t.NoReset → (∀ o ∈ t.leaves, okOp o) → t.run = .ok v → Rep v t.leaves
  | dflt, v, _, _, h => by cases h; exact hd
  | base b, v, _, hok, h => by cases h; exact hb b (hok _ (by simp [leaves]))
  | op t o, v, hn, hok, h => by
    obtain ⟨w, hw, h⟩ := Res.bind_eq_ok.1 h
    exact ho w _ o v hn.2 (hok o (by simp [leaves]))
      (run_rep Rep okOp hd hb ho hj t w hn.1 (fun o h => hok o (by simp [leaves, h])) hw) h
  | join l r, v, hn, hok, h => by
    obtain ⟨a, ha, h⟩ := Res.bind_eq_ok.1 h
    obtain ⟨b, hb', h⟩ := Res.bind_eq_ok.1 h
    exact hj a b _ _ v
      (run_rep Rep okOp hd hb ho hj l a hn.1 (fun o h => hok o (by simp [leaves, h])) ha)
      (run_rep Rep okOp hd hb ho hj r b hn.2 (fun o h => hok o (by simp [leaves, h])) hb') h

theorem leaves_foldl_op (os : List (StatOp D)) (t : Tree D) :
    (os.foldl Tree.op t).leaves = t.leaves ++ os := by
  induction os generalizing t with
  | nil => simp
  | cons o os ih => simp [ih, leaves]

@[simp] theorem leaves_ofList (os : List (StatOp D)) : (ofList os).leaves = os := by
  simp [ofList, leaves_foldl_op, leaves]

theorem leaves_foldl_join (os : List (StatOp D)) (t : Tree D) :
    (os.foldl (fun t o => t.join (Tree.op .dflt o)) t).leaves = t.leaves ++ os := by
  induction os generalizing t with
  | nil => simp
  | cons o os ih => simp [ih, leaves]

@[simp] theorem leaves_joinAll (os : List (StatOp D)) : (joinAll os).leaves = os := by
  simp [joinAll, leaves_foldl_join, leaves]

theorem noReset_foldl_op (os : List (StatOp D)) (t : Tree D) :
    (os.foldl Tree.op t).NoReset ↔ t.NoReset ∧ ∀ o ∈ os, ¬ o.IsBase := by
  induction os generalizing t with
  | nil => simp
  | cons o os ih => simp [ih, NoReset, and_assoc]

theorem noReset_ofList (os : List (StatOp D)) : (ofList os).NoReset ↔ ∀ o ∈ os, ¬ o.IsBase := by
  simp [ofList, noReset_foldl_op, NoReset]

end Tree

namespace Contrib
variable {A M B : Type}

theorem total_append [AddMonoid A] (L K : List (Contrib A M B)) :
    total (L ++ K) = total L + total K := by
  induction L with
  | nil => simp [total]
  | cons c L ih => cases c <;> simp [total, ih, add_assoc]

theorem product_append [Monoid M] (L K : List (Contrib A M B)) :
    product (L ++ K) = product L * product K := by
  induction L with
  | nil => simp [product]
  | cons c L ih => cases c <;> simp [product, ih, mul_assoc]

theorem multSum_append [AddMonoid M] (L K : List (Contrib A M B)) :
    multSum (L ++ K) = multSum L + multSum K := by
  induction L with
  | nil => simp [multSum]
  | cons c L ih => cases c <;> simp [multSum, ih, add_assoc]

theorem le_floorOf [LinearOrder B] (lo : B) (L : List (Contrib A M B)) : lo ≤ floorOf lo L := by
  induction L with
  | nil => simp [floorOf]
  | cons c L ih => cases c <;> simp [floorOf, ih]

theorem capOf_le [LinearOrder B] (hi : B) (L : List (Contrib A M B)) : capOf hi L ≤ hi := by
  induction L with
  | nil => simp [capOf]
  | cons c L ih => cases c <;> simp [capOf, ih]

theorem floorOf_append [LinearOrder B] (lo : B) (L K : List (Contrib A M B)) :
    floorOf lo (L ++ K) = max (floorOf lo L) (floorOf lo K) := by
  induction L with
  | nil => simp [floorOf, le_floorOf]
  | cons c L ih => cases c <;> simp [floorOf, ih, max_assoc]

theorem capOf_append [LinearOrder B] (hi : B) (L K : List (Contrib A M B)) :
    capOf hi (L ++ K) = min (capOf hi L) (capOf hi K) := by
  induction L with
  | nil => simp [capOf, capOf_le]
  | cons c L ih => cases c <;> simp [capOf, ih, min_assoc]

theorem max_floorOf [LinearOrder B] (lo b : B) (L : List (Contrib A M B)) :
    max (floorOf lo L) (max b lo) = max (floorOf lo L) b := by
  rw [max_comm b lo, ← max_assoc, max_eq_left (le_floorOf lo L)]

theorem min_capOf [LinearOrder B] (hi b : B) (L : List (Contrib A M B)) :
    min (capOf hi L) (min b hi) = min (capOf hi L) b := by
  rw [min_comm b hi, ← min_assoc, min_eq_left (capOf_le hi L)]

theorem total_perm [AddCommMonoid A] {L K : List (Contrib A M B)} (h : L.Perm K) :
    total L = total K := by
  induction h with
  | nil => rfl
  | cons c _ ih => cases c <;> simp [total, ih]
  | swap c d l => cases c <;> cases d <;> simp [total, add_left_comm]
  | trans _ _ h1 h2 => exact h1.trans h2

theorem product_perm [CommMonoid M] {L K : List (Contrib A M B)} (h : L.Perm K) :
    product L = product K := by
  induction h with
  | nil => rfl
  | cons c _ ih => cases c <;> simp [product, ih]
  | swap c d l => cases c <;> cases d <;> simp [product, mul_left_comm]
  | trans _ _ h1 h2 => exact h1.trans h2

theorem multSum_perm [AddCommMonoid M] {L K : List (Contrib A M B)} (h : L.Perm K) :
    multSum L = multSum K := by
  induction h with
  | nil => rfl
  | cons c _ ih => cases c <;> simp [multSum, ih]
  | swap c d l => cases c <;> cases d <;> simp [multSum, add_left_comm]
  | trans _ _ h1 h2 => exact h1.trans h2

theorem floorOf_perm [LinearOrder B] (lo : B) {L K : List (Contrib A M B)} (h : L.Perm K) :
    floorOf lo L = floorOf lo K := by
  induction h with
  | nil => rfl
  | cons c _ ih => cases c <;> simp [floorOf, ih]
  | swap c d l => cases c <;> cases d <;> simp [floorOf, max_left_comm]
  | trans _ _ h1 h2 => exact h1.trans h2

theorem capOf_perm [LinearOrder B] (hi : B) {L K : List (Contrib A M B)} (h : L.Perm K) :
    capOf hi L = capOf hi K := by
  induction h with
  | nil => rfl
  | cons c _ ih => cases c <;> simp [capOf, ih]
  | swap c d l => cases c <;> cases d <;> simp [capOf, min_left_comm]
  | trans _ _ h1 h2 => exact h1.trans h2

theorem le_floorOf_of_mem [LinearOrder B] (lo : B) {L : List (Contrib A M B)} {b : B}
    (h : .atLeast b ∈ L) : b ≤ floorOf lo L := by
  induction L with
  | nil => cases h
  | cons c L ih =>
    rcases List.mem_cons.1 h with rfl | h'
    · simp [floorOf]
    · cases c <;> simp [floorOf, ih h']

theorem capOf_le_of_mem [LinearOrder B] (hi : B) {L : List (Contrib A M B)} {b : B}
    (h : .atMost b ∈ L) : capOf hi L ≤ b := by
  induction L with
  | nil => cases h
  | cons c L ih =>
    rcases List.mem_cons.1 h with rfl | h'
    · simp [capOf]
    · cases c <;> simp [capOf, ih h']

end Contrib
end BSQ
