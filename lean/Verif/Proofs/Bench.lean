import Verif.Model.Bench
import Verif.Props.StatMap
import Verif.Props.Returns
import Verif.Props.Simulate
/-! # Lemmas about the benchmark -/
namespace BSQ
open KeyBefore FlagSpec
variable {Q : Type} [Ord Q]

theorem qualBefore_iff [Std.LawfulEqOrd Q] (a b : Qualifier Q) : QualBefore a b ↔ a.cmp b = .lt := by
  simp only [QualBefore, Qualifier.cmp, Ordering.then_eq_lt, Std.LawfulEqOrd.compare_eq_iff_eq]

namespace BTree
variable {K V : Type} {cmp : K → K → Ordering} [Std.TransCmp cmp] [Std.LawfulEqCmp cmp]

theorem mem_insert (k : K) (v : V) (t : BTree K V) (ht : (t.map (·.1)).Pairwise (fun a b => cmp a b = .lt)) (x : K × V) :
    x ∈ BTree.insert cmp k v t ↔ x = (k, v) ∨ (x.1 ≠ k ∧ x ∈ t) := by
  induction t with
  | nil => simp [BTree.insert]
  | cons e t ih =>
    simp only [List.map_cons, List.pairwise_cons] at ht
    have hin : ∀ y ∈ t, cmp e.1 y.1 = .lt := fun y hy => ht.1 _ (List.mem_map_of_mem hy)
    simp only [BTree.insert]
    cases hc : cmp k e.1 with
    | lt =>
      have hne : ∀ y ∈ e :: t, y.1 ≠ k := by
        rintro y hy rfl
        rcases List.mem_cons.1 hy with rfl | hy
        · rw [Std.ReflCmp.compare_self (cmp := cmp)] at hc; cases hc
        · have := Std.TransCmp.lt_trans hc (hin y hy)
          rw [Std.ReflCmp.compare_self (cmp := cmp)] at this; cases this
      simp only [List.mem_cons (a := x) (b := (k, v))]
      exact or_congr Iff.rfl ⟨fun h => ⟨hne _ h, h⟩, fun h => h.2⟩
    | eq =>
      have hk := Std.LawfulEqCmp.eq_of_compare hc
      subst hk
      have hne : ∀ y ∈ t, y.1 ≠ e.1 := by
        intro y hy h
        have := hin y hy
        rw [h, Std.ReflCmp.compare_self (cmp := cmp)] at this; cases this
      simp only [List.mem_cons]
      refine or_congr Iff.rfl ⟨fun h => ⟨hne _ h, .inr h⟩, ?_⟩
      rintro ⟨h, rfl | h'⟩
      · exact absurd rfl h
      · exact h'
    | gt =>
      have hne : e.1 ≠ k := by
        rintro rfl
        rw [Std.ReflCmp.compare_self (cmp := cmp)] at hc; cases hc
      simp only [List.mem_cons, ih ht.2]
      constructor
      · rintro (rfl | rfl | h)
        · exact .inr ⟨hne, .inl rfl⟩
        · exact .inl rfl
        · exact .inr ⟨h.1, .inr h.2⟩
      · rintro (rfl | ⟨h, rfl | h'⟩)
        · exact .inr (.inl rfl)
        · exact .inl rfl
        · exact .inr (.inr ⟨h, h'⟩)

theorem sorted_insert (k : K) (v : V) (t : BTree K V) (ht : (t.map (·.1)).Pairwise (fun a b => cmp a b = .lt)) :
    ((BTree.insert cmp k v t).map (·.1)).Pairwise (fun a b => cmp a b = .lt) := by
  induction t with
  | nil => simp [BTree.insert]
  | cons e t ih =>
    have ht' := ht
    simp only [List.map_cons, List.pairwise_cons] at ht
    simp only [BTree.insert]
    cases hc : cmp k e.1 with
    | lt =>
      refine List.pairwise_cons.2 ⟨?_, ht'⟩
      intro a ha
      rcases List.mem_cons.1 ha with rfl | ha
      · exact hc
      · exact Std.TransCmp.lt_trans hc (ht.1 _ ha)
    | eq => exact ht'
    | gt =>
      refine List.pairwise_cons.2 ⟨?_, ih ht.2⟩
      intro a ha
      obtain ⟨x, hx, rfl⟩ := List.mem_map.1 ha
      rcases (mem_insert k v t ht.2 x).1 hx with rfl | h
      · exact Std.OrientedCmp.lt_of_gt hc
      · exact ht.1 _ (List.mem_map_of_mem h.2)

omit [Std.TransCmp cmp] [Std.LawfulEqCmp cmp] in
theorem insert_last (k : K) (v : V) (t : BTree K V) (h : ∀ e ∈ t, cmp k e.1 = .gt) :
    BTree.insert cmp k v t = t ++ [(k, v)] := by
  induction t with
  | nil => rfl
  | cons e t ih =>
    simp only [BTree.insert, h e (by simp), ih (fun e he => h e (by simp [he])), List.cons_append]

omit [Std.LawfulEqCmp cmp] in
theorem fill_sorted (l t : BTree K V) (h : ((t ++ l).map (·.1)).Pairwise (fun a b => cmp a b = .lt)) :
    l.foldl (fun t x => BTree.insert cmp x.1 x.2 t) t = t ++ l := by
  induction l generalizing t with
  | nil => simp
  | cons x l ih =>
    have hx : BTree.insert cmp x.1 x.2 t = t ++ [x] := by
      refine insert_last _ _ _ fun e he => ?_
      rw [List.map_append, List.pairwise_append] at h
      exact Std.OrientedCmp.gt_of_lt (h.2.2 _ (List.mem_map_of_mem he) x.1 (by simp))
    rw [List.foldl_cons, hx, ih]
    · simp
    · simpa using h

end BTree

namespace Bench

theorem range_filter (n m : Nat) : (List.range n).filter (· < m) = List.range (min n m) := by
  induction n with
  | zero => simp
  | succ n ih =>
    rw [List.range_succ, List.filter_append, ih]
    by_cases h : n < m
    · rw [Nat.min_eq_left (by omega), Nat.min_eq_left (by omega), List.range_succ]
      simp [h]
    · rw [Nat.min_eq_right (by omega), Nat.min_eq_right (by omega)]
      simp [h]

theorem cmp_ofAll {w : Nat} (i j : Nat) (h : i < j) (hj : j < 2 ^ w) :
    Qualifier.cmp (Qualifier.ofAll (BitVec.ofNat w i)) (.ofAll (BitVec.ofNat w j)) = .lt := by
  rw [← qualBefore_iff]
  refine .inr ⟨rfl, ?_⟩
  show compare (BitVec.ofNat w i) (BitVec.ofNat w j) = .lt
  have hlt : BitVec.ofNat w i < BitVec.ofNat w j := by
    rw [BitVec.lt_def, BitVec.toNat_ofNat, BitVec.toNat_ofNat, Nat.mod_eq_of_lt (by omega), Nat.mod_eq_of_lt hj]
    exact h
  simp [compare, compareOfLessAndEq, hlt]

theorem items_sorted {w n : Nat} (hn : n ≤ 2 ^ w) :
    ((items w n).map (·.1)).Pairwise (fun a b => Qualifier.cmp a b = .lt) := by
  rw [items, List.map_map, List.pairwise_map]
  refine List.pairwise_lt_range.imp_of_mem ?_
  intro i j _ hj h
  exact cmp_ofAll i j h (lt_of_lt_of_le (List.mem_range.1 hj) hn)

theorem qualifies_ofAll {w k i : Nat} (hk : k ≤ w) (hi : i < 2 ^ w) :
    (Qualifier.ofAll (BitVec.ofNat w i)).qualifiesAs (.aggregate (BitVec.ofNat w (2 ^ k - 1))) = decide (i < 2 ^ k) := by
  have hm : 2 ^ k - 1 < 2 ^ w := lt_of_lt_of_le (Nat.sub_lt (Nat.two_pow_pos k) (by omega)) (Nat.pow_le_pow_right (by omega) hk)
  have hand : BitVec.ofNat w (2 ^ k - 1) &&& BitVec.ofNat w i = BitVec.ofNat w (i % 2 ^ k) := by
    apply BitVec.eq_of_toNat_eq
    have hlt : i % 2 ^ k < 2 ^ w := lt_of_le_of_lt (Nat.mod_le _ _) hi
    rw [BitVec.toNat_and, BitVec.toNat_ofNat, BitVec.toNat_ofNat, BitVec.toNat_ofNat, Nat.mod_eq_of_lt hm,
      Nat.mod_eq_of_lt hi, Nat.mod_eq_of_lt hlt, Nat.and_comm, Nat.and_two_pow_sub_one_eq_mod]
  have key : BitVec.ofNat w (i % 2 ^ k) = BitVec.ofNat w i ↔ i < 2 ^ k := by
    constructor
    · intro h
      have h := congrArg BitVec.toNat h
      rw [BitVec.toNat_ofNat, BitVec.toNat_ofNat, Nat.mod_eq_of_lt hi,
        Nat.mod_eq_of_lt (lt_of_le_of_lt (Nat.mod_le _ _) hi)] at h
      rw [← h]
      exact Nat.mod_lt _ (Nat.two_pow_pos k)
    · intro h
      rw [Nat.mod_eq_of_lt h]
  rw [Bool.eq_iff_iff, decide_eq_true_iff, ← key, ← hand]
  simp [Qualifier.qualifiesAs, Qualifier.ofAll, QualifierFlag.contains, QualifierFlag.isNoneOrIntersects,
    QualifierFlag.isNone, QualifierFlag.none, BitFlags.band]
  exact decide_eq_true_iff

theorem filtered {w n k : Nat} (hn : n ≤ 2 ^ w) (hk : k ≤ w) :
    (fillTree (items w n)).filter (fun e => e.1.qualifiesAs (.aggregate (BitVec.ofNat w (2 ^ k - 1)))) =
      items w (min n (2 ^ k)) := by
  have hf : fillTree (items w n) = items w n := BTree.fill_sorted (items w n) [] (items_sorted hn)
  rw [hf, items, List.filter_map, items, ← range_filter]
  congr 1
  refine List.filter_congr fun i hi => ?_
  exact qualifies_ofAll hk (lt_of_lt_of_le (List.mem_range.1 hi) hn)

/-- the assembly that joins `c` times the base value 1 -/
def ones (t : NumTy) : Nat → Tree (statIntPercentAdditive t .truncate 100)
  | 0 => .dflt
  | c + 1 => .join (ones t c) (.base (1 : Int))

theorem joinList_append_one {V : Type} (D : StatValue V) (v : V) (l : List V) (x : V) :
    joinList D v (l ++ [x]) = (joinList D v l >>= fun w => D.join w x) := by
  induction l generalizing v with
  | nil =>
    simp only [joinList, List.nil_append, Res.bind_ok]
    cases D.join v x <;> rfl
  | cons y l ih =>
    simp only [joinList, List.cons_append]
    cases D.join v y with
    | error e => rfl
    | ok w => exact ih w

theorem ones_run (t : NumTy) (c : Nat) : (ones t c).run =
    joinList (statIntPercentAdditive t .truncate 100) (statIntPercentAdditive t .truncate 100).default
      (List.replicate c ((statIntPercentAdditive t .truncate 100).fromBase (1 : Int))) := by
  induction c with
  | zero => rfl
  | succ c ih =>
    rw [List.replicate_succ', joinList_append_one, ← ih]
    rfl

theorem ones_leaves (t : NumTy) (c : Nat) : (ones t c).leaves = List.replicate c (.base (1 : Int)) := by
  induction c with
  | zero => rfl
  | succ c ih => rw [ones, Tree.leaves, ih, List.replicate_succ']; rfl

theorem ones_noReset (t : NumTy) (c : Nat) : (ones t c).NoReset := by
  induction c with
  | zero => trivial
  | succ c ih => exact ⟨ih, trivial⟩

theorem ones_retype (t t' : NumTy) (c : Nat) :
    (Retype.percentAdditive t t' .truncate 100).tree (ones t c) = ones t' c := by
  induction c with
  | zero => rfl
  | succ c ih => rw [ones, Retype.tree, ih]; rfl

theorem fillMap_eq {E : Env} {Q : Type} [Ord Q] (A : Addr E) (s : StatInst E)
    (items : List (Qualifier Q × s.sv.BaseT)) (m : StatMap E Q) :
    items.foldlM (fun m x => StatMap.insertBase A m x.1 s x.2) m =
      StatMap.runFrom A m (items.map fun x => MapOp.insertBase x.1 s x.2) := by
  induction items generalizing m with
  | nil => rfl
  | cons x l ih =>
    simp only [List.foldlM_cons, List.map_cons, StatMap.runFrom, StatMap.step]
    cases StatMap.insertBase A m x.1 s x.2 with
    | error e => rfl
    | ok m' => exact ih m'

theorem naive_eq {V : Type} (D : StatValue V) (op : D.BaseT → StatOp D) (l : List D.BaseT)
    (h : ∀ b ∈ l, (op b).intoStat = .ok (D.fromBase b)) (v : V) :
    l.foldlM (fun result b => do
      let x ← (op b).intoStat
      D.join result x) v = joinList D v (l.map D.fromBase) := by
  induction l generalizing v with
  | nil => rfl
  | cons b l ih =>
    simp only [List.foldlM_cons, List.map_cons, joinList, h b (by simp)]
    cases hj : D.join v (D.fromBase b) with
    | error e => simp only [Res.bind_ok, hj]; rfl
    | ok w => simp only [Res.bind_ok, hj]; exact ih (fun b hb => h b (by simp [hb])) w

section
variable {E : Env} [DecidableEq Q] [Std.TransOrd Q] [Std.LawfulEqOrd Q]

/-- the plain map and the tree hold the same -/
theorem fill_rel (s : StatInst E) (hs : Storable (E.layout s.ty)) (items : List (Qualifier Q × s.sv.BaseT))
    (a : PMap E Q) (t : BTree (Qualifier Q) s.sv.BaseT)
    (ht : (t.map (·.1)).Pairwise (fun a b => Qualifier.cmp a b = .lt))
    (hat : ∀ q v, a ⟨s, q⟩ = some v ↔ ∃ b, (q, b) ∈ t ∧ v = s.sv.fromBase b) :
    let t' := items.foldl (fun t x => BTree.insert Qualifier.cmp x.1 x.2 t) t
    (t'.map (·.1)).Pairwise (fun a b => Qualifier.cmp a b = .lt) ∧
    ∃ a', PMap.runFrom a (items.map fun x => MapOp.insertBase x.1 s x.2) = .ok a' ∧
      ∀ q v, a' ⟨s, q⟩ = some v ↔ ∃ b, (q, b) ∈ t' ∧ v = s.sv.fromBase b := by
  induction items generalizing a t with
  | nil => exact ⟨ht, a, rfl, hat⟩
  | cons x l ih =>
    have hst : PMap.step a (MapOp.insertBase x.1 s x.2) = .ok (a.set ⟨s, x.1⟩ (s.sv.fromBase x.2)) := by
      simp only [PMap.step, PMap.store]
      rw [if_pos hs]
    have hih := ih (a.set ⟨s, x.1⟩ (s.sv.fromBase x.2)) (BTree.insert Qualifier.cmp x.1 x.2 t)
      (BTree.sorted_insert _ _ _ ht) ?_
    · obtain ⟨h1, a', h2, h3⟩ := hih
      refine ⟨h1, a', ?_, h3⟩
      simp only [List.map_cons, PMap.runFrom, hst]
      exact h2
    · intro q v
      simp only [BTree.mem_insert _ _ _ ht, PMap.set]
      by_cases hq : q = x.1
      · subst hq
        simp only [dite_true, Option.some.injEq]
        constructor
        · rintro rfl
          exact ⟨x.2, .inl rfl, rfl⟩
        · rintro ⟨b, hb | hb, rfl⟩
          · injection hb with _ hb
            rw [hb]
          · exact absurd rfl hb.1
      · rw [dif_neg (fun h => hq (by injection h))]
        rw [hat]
        constructor
        · rintro ⟨b, hb, rfl⟩
          exact ⟨b, .inr ⟨hq, hb⟩, rfl⟩
        · rintro ⟨b, hb | hb, rfl⟩
          · injection hb with hb _
            exact absurd hb hq
          · exact ⟨b, hb.2, rfl⟩

omit [DecidableEq Q] in
theorem mem_fill {B : Type} (items : List (Qualifier Q × B)) (t : BTree (Qualifier Q) B)
    (ht : (t.map (·.1)).Pairwise (fun a b => Qualifier.cmp a b = .lt)) (x : Qualifier Q × B)
    (hx : x ∈ items.foldl (fun t x => BTree.insert Qualifier.cmp x.1 x.2 t) t) : x ∈ items ∨ x ∈ t := by
  induction items generalizing t with
  | nil => exact .inr hx
  | cons y l ih =>
    rcases ih _ (BTree.sorted_insert _ _ _ ht) hx with h | h
    · exact .inl (by simp [h])
    · rcases (BTree.mem_insert _ _ _ ht _).1 h with rfl | h
      · exact .inl (by simp)
      · exact .inr h.2
end

end Bench

theorem qualifiesAs_iff {Q : Type} [BitFlags Q] [FlagSet Q] (k : Qualifier Q) (q : QualifierQuery Q) :
    k.qualifiesAs q = true ↔ Matches k q := by
  cases q with
  | aggregate x => exact aggregate_iff k x
  | exact a b => exact exact_iff k a b

end BSQ
