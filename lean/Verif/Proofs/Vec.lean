import Verif.Proofs.Search
import Verif.Spec.StatMap
import Mathlib.Data.List.Nodup
import Mathlib.Data.List.Perm.Basic
/-! # The sorted vector inside `StatMap`, as an association list -/
set_option linter.unusedSectionVars false
namespace BSQ
variable {E : Env} {Q B : Type}

theorem modify_mid {α : Type} (pre post : List α) (e : α) (f : α → α) :
    (pre ++ e :: post).modify pre.length f = pre ++ f e :: post := by
  induction pre with
  | nil => rfl
  | cons x pre ih => simp [List.modify_succ_cons, ih]

theorem insertIdx_mid {α : Type} (pre post : List α) (e : α) :
    (pre ++ post).insertIdx pre.length e = pre ++ e :: post := by
  induction pre with
  | nil => simp
  | cons x pre ih => simp [ih]

theorem eraseIdx_mid {α : Type} (pre post : List α) (e : α) :
    (pre ++ e :: post).eraseIdx pre.length = pre ++ post := by
  induction pre with
  | nil => rfl
  | cons x pre ih => simp [ih]

section order
variable (A : Addr E)

theorem StatInst.cmp_eq_lex :
    StatInst.cmp A = compareLex (compareOn (fun s : StatInst E => A.at_ s.vt)) (compareOn (·.index)) := rfl

instance : Std.TransCmp (StatInst.cmp A) := by rw [StatInst.cmp_eq_lex]; infer_instance

instance : Std.LawfulEqCmp (StatInst.cmp A) where
  compare_self {a} := Std.ReflCmp.compare_self
  eq_of_compare {a b} h := by
    obtain ⟨av, ai⟩ := a
    obtain ⟨bv, bi⟩ := b
    simp only [StatInst.cmp, Ordering.then_eq_eq, Nat.compare_eq_eq] at h
    have := A.inj h.1
    obtain ⟨_, rfl⟩ := h
    rw [this]

variable [Ord Q]
theorem Qualifier.cmp_eq_lex :
    (Qualifier.cmp : Qualifier Q → _) = compareLex (compareOn (·.anyOf)) (compareOn (·.allOf)) := rfl

instance [Std.TransOrd Q] : Std.TransCmp (Qualifier.cmp (Q := Q)) := by
  rw [Qualifier.cmp_eq_lex]; infer_instance
instance [Std.LawfulEqOrd Q] : Std.LawfulEqCmp (Qualifier.cmp (Q := Q)) where
  compare_self {a} := by simp [Qualifier.cmp, Std.ReflCmp.compare_self]
  eq_of_compare {a b} h := by
    obtain ⟨_, _⟩ := a
    obtain ⟨_, _⟩ := b
    simp only [Qualifier.cmp, Ordering.then_eq_eq] at h
    rw [Std.LawfulEqCmp.eq_of_compare h.1, Std.LawfulEqCmp.eq_of_compare h.2]

/-- the order of keys -/
def Key.cmp (a b : Key E Q) : Ordering := (a.stat.cmp A b.stat).then (a.qual.cmp b.qual)

theorem Key.cmp_eq_lex : (Key.cmp A : Key E Q → _) =
    compareLex (fun a b => StatInst.cmp A a.stat b.stat) (fun a b => Qualifier.cmp a.qual b.qual) := rfl

instance [Std.TransOrd Q] : Std.TransCmp (Key.cmp (Q := Q) A) := by
  rw [Key.cmp_eq_lex]
  have h1 : Std.TransCmp (fun a b : Key E Q => StatInst.cmp A a.stat b.stat) :=
    { eq_swap := Std.OrientedCmp.eq_swap (cmp := StatInst.cmp A)
      isLE_trans := Std.TransCmp.isLE_trans (cmp := StatInst.cmp A) }
  have h2 : Std.TransCmp (fun a b : Key E Q => Qualifier.cmp a.qual b.qual) :=
    { eq_swap := Std.OrientedCmp.eq_swap (cmp := Qualifier.cmp (Q := Q))
      isLE_trans := Std.TransCmp.isLE_trans (cmp := Qualifier.cmp (Q := Q)) }
  infer_instance

instance [Std.LawfulEqOrd Q] : Std.LawfulEqCmp (Key.cmp (Q := Q) A) where
  compare_self {a} := by simp [Key.cmp, Std.ReflCmp.compare_self]
  eq_of_compare {a b} h := by
    obtain ⟨_, _⟩ := a
    obtain ⟨_, _⟩ := b
    simp only [Key.cmp, Ordering.then_eq_eq] at h
    rw [Std.LawfulEqCmp.eq_of_compare h.1, Std.LawfulEqCmp.eq_of_compare h.2]
end order

/-- the key of an entry -/
abbrev Entry.key (e : Entry E Q B) : Key E Q := ⟨e.stat, e.qual⟩

namespace Vec
variable [Ord Q] [Std.TransOrd Q] [Std.LawfulEqOrd Q] (A : Addr E)

/-- `a` comes strictly before `b` -/
def KLt (a b : Key E Q) : Prop := a.cmp A b = .lt

theorem KLt.trans {A : Addr E} {a b c : Key E Q} (h : KLt A a b) (h' : KLt A b c) : KLt A a c :=
  Std.TransCmp.lt_trans h h'
theorem KLt.ne {A : Addr E} {a b : Key E Q} (h : KLt A a b) : a ≠ b := by
  rintro rfl
  unfold KLt at h
  rw [Std.ReflCmp.compare_self (cmp := Key.cmp A)] at h; cases h
theorem KLt.gt {A : Addr E} {a b : Key E Q} : KLt A a b ↔ b.cmp A a = .gt :=
  (Std.OrientedCmp.gt_iff_lt (cmp := Key.cmp A)).symm

/-- strictly ascending keys -/
def Sorted (m : Vec E Q B) : Prop := (m.map Entry.key).Pairwise (KLt A)

variable {A}

theorem Sorted.nodup {m : Vec E Q B} (h : Sorted A m) : (m.map Entry.key).Nodup :=
  List.Pairwise.imp (fun h => h.ne) h

/-- the first buffer stored under a key -/
def lookup [DecidableEq Q] (m : Vec E Q B) (k : Key E Q) : Option B :=
  (m.find? (fun e => decide (e.key = k))).map (·.buf)

/-- how a search splits a sorted vector -/
theorem search_split {m : Vec E Q B} (h : Sorted A m) (q : Qualifier Q) (s : StatInst E) :
    (∃ pre e post, m = pre ++ e :: post ∧ e.key = ⟨s, q⟩ ∧ m.search A q s = .ok pre.length ∧
      (∀ x ∈ pre, KLt A x.key ⟨s, q⟩) ∧ ∀ x ∈ post, KLt A ⟨s, q⟩ x.key) ∨
    (∃ pre post, m = pre ++ post ∧ m.search A q s = .error pre.length ∧
      (∀ x ∈ pre, KLt A x.key ⟨s, q⟩) ∧ ∀ x ∈ post, KLt A ⟨s, q⟩ x.key) := by
  have hk : ∀ e : Entry E Q B, e.keyCmp A s q = Key.cmp A e.key ⟨s, q⟩ := fun _ => rfl
  have hp : m.Pairwise (fun a b => KLt A a.key b.key) := List.pairwise_map.1 h
  have ho : Ordered m (fun e => e.keyCmp A s q) := by
    refine hp.imp ?_
    intro a b hab
    simp only [hk]
    refine ⟨fun hgt => ?_, fun hlt => hab.trans hlt⟩
    exact KLt.gt.1 ((KLt.gt.2 hgt).trans hab)
  have key := binarySearchBy_spec ho
  unfold search
  split at key
  · rename_i i hi
    obtain ⟨hil, he⟩ := key
    left
    refine ⟨m.take i, m[i], m.drop (i + 1), by simp, ?_, by rw [hi]; simp; omega, ?_, ?_⟩
    · rw [hk] at he
      exact Std.LawfulEqCmp.eq_of_compare he
    · have hke : m[i].key = ⟨s, q⟩ := Std.LawfulEqCmp.eq_of_compare (cmp := Key.cmp A) (by rw [← hk]; exact he)
      rw [← hke]
      intro x hx
      obtain ⟨j, hj, rfl⟩ := List.mem_iff_getElem.1 hx
      simp only [List.length_take] at hj
      rw [List.getElem_take]
      exact List.pairwise_iff_getElem.1 hp j i (by omega) hil (by omega)
    · have hke : m[i].key = ⟨s, q⟩ := Std.LawfulEqCmp.eq_of_compare (cmp := Key.cmp A) (by rw [← hk]; exact he)
      rw [← hke]
      intro x hx
      obtain ⟨j, hj, rfl⟩ := List.mem_iff_getElem.1 hx
      simp only [List.length_drop] at hj
      rw [List.getElem_drop]
      exact List.pairwise_iff_getElem.1 hp i _ hil (by omega) (by omega)
  · rename_i i hi
    obtain ⟨hil, h2, h3⟩ := key
    right
    refine ⟨m.take i, m.drop i, by simp, by rw [hi]; simp; omega, ?_, ?_⟩
    · intro x hx
      obtain ⟨j, hj, rfl⟩ := List.mem_iff_getElem.1 hx
      simp only [List.length_take] at hj
      rw [List.getElem_take]
      exact h2 j (by omega) (by omega)
    · intro x hx
      obtain ⟨j, hj, rfl⟩ := List.mem_iff_getElem.1 hx
      simp only [List.length_drop] at hj
      rw [List.getElem_drop]
      exact KLt.gt.2 (h3 _ (by omega) (by omega))

variable [DecidableEq Q]

theorem lookup_append_of_ne {pre m : Vec E Q B} {k : Key E Q} (h : ∀ x ∈ pre, x.key ≠ k) :
    lookup (pre ++ m) k = lookup m k := by
  simp only [lookup, List.find?_append]
  rw [List.find?_eq_none.2 (by simpa using h)]
  rfl

theorem lookup_eq_none {m : Vec E Q B} {k : Key E Q} (h : ∀ x ∈ m, x.key ≠ k) : lookup m k = none := by
  simp only [lookup, Option.map_eq_none_iff]
  exact List.find?_eq_none.2 (by simpa using h)

theorem lookup_cons_self {m : Vec E Q B} {e : Entry E Q B} {k : Key E Q} (h : e.key = k) :
    lookup (e :: m) k = some e.buf := by simp [lookup, h]

theorem lookup_cons_ne {m : Vec E Q B} {e : Entry E Q B} {k : Key E Q} (h : e.key ≠ k) :
    lookup (e :: m) k = lookup m k := by simp [lookup, h]

/-- replacing / inserting / removing one entry does not affect other keys -/
theorem lookup_middle_ne {pre post : Vec E Q B} {e : Entry E Q B} {k j : Key E Q} (h : e.key = k)
    (hj : j ≠ k) : lookup (pre ++ e :: post) j = lookup (pre ++ post) j := by
  have : e.key ≠ j := by rw [h]; exact hj.symm
  induction pre with
  | nil => exact lookup_cons_ne this
  | cons x pre ih =>
    simp only [List.cons_append]
    by_cases hx : x.key = j
    · rw [lookup_cons_self hx, lookup_cons_self hx]
    · rw [lookup_cons_ne hx, lookup_cons_ne hx, ih]

theorem mem_lookup {m : Vec E Q B} {k : Key E Q} {b : B} (h : lookup m k = some b) :
    ∃ e ∈ m, e.key = k ∧ e.buf = b := by
  simp only [lookup, Option.map_eq_some_iff] at h
  obtain ⟨e, he, rfl⟩ := h
  exact ⟨e, List.mem_of_find?_eq_some he, by simpa using List.find?_some he, rfl⟩

theorem lookup_mem {m : Vec E Q B} (hs : Sorted A m) {e : Entry E Q B} (he : e ∈ m) :
    lookup m e.key = some e.buf := by
  obtain ⟨pre, post, rfl⟩ := List.append_of_mem he
  have hn := hs.nodup
  simp only [List.map_append, List.map_cons] at hn
  rw [lookup_append_of_ne, lookup_cons_self rfl]
  intro x hx hk
  rw [List.nodup_append] at hn
  exact hn.2.2 _ (List.mem_map_of_mem hx) _ (by simp) hk

theorem find_eq {m : Vec E Q B} (h : Sorted A m) (q : Qualifier Q) (s : StatInst E) :
    m.find A q s = lookup m ⟨s, q⟩ := by
  unfold find
  rcases search_split h q s with ⟨pre, e, post, rfl, he, hs, hl, hr⟩ | ⟨pre, post, rfl, hs, hl, hr⟩
  · rw [hs, lookup_append_of_ne (fun x hx => (hl x hx).ne), lookup_cons_self he]
    simp
  · rw [hs, lookup_eq_none]
    intro x hx
    rcases List.mem_append.1 hx with hx | hx
    · exact (hl x hx).ne
    · exact (hr x hx).ne.symm

theorem sorted_append {l r : Vec E Q B} :
    Sorted A (l ++ r) ↔ Sorted A l ∧ Sorted A r ∧ ∀ x ∈ l, ∀ y ∈ r, KLt A x.key y.key := by
  simp [Sorted, List.pairwise_append]

theorem sorted_cons {e : Entry E Q B} {r : Vec E Q B} :
    Sorted A (e :: r) ↔ (∀ y ∈ r, KLt A e.key y.key) ∧ Sorted A r := by
  simp [Sorted]

theorem put_found {pre post : Vec E Q B} {e : Entry E Q B} {q : Qualifier Q} {s : StatInst E} (b : B)
    (h : search A (pre ++ e :: post) q s = .ok pre.length) :
    put A (pre ++ e :: post) q s b = (pre ++ { e with buf := b } :: post, some e.buf) := by
  unfold put
  rw [h]
  simp [modify_mid]

theorem put_absent {pre post : Vec E Q B} {q : Qualifier Q} {s : StatInst E} (b : B)
    (h : search A (pre ++ post) q s = .error pre.length) :
    put A (pre ++ post) q s b = (pre ++ ⟨s, q, b⟩ :: post, none) := by
  unfold put
  rw [h]
  simp [insertIdx_mid]

theorem pull_found {pre post : Vec E Q B} {e : Entry E Q B} {q : Qualifier Q} {s : StatInst E}
    (h : search A (pre ++ e :: post) q s = .ok pre.length) :
    pull A (pre ++ e :: post) q s = (pre ++ post, some e.buf) := by
  unfold pull
  rw [h]
  simp [eraseIdx_mid]

theorem pull_absent {m : Vec E Q B} {i : Nat} {q : Qualifier Q} {s : StatInst E}
    (h : search A m q s = .error i) : pull A m q s = (m, none) := by
  unfold pull
  rw [h]

/-- putting a buffer under a key -/
theorem put_spec {m : Vec E Q B} (h : Sorted A m) (q : Qualifier Q) (s : StatInst E) (b : B) :
    Sorted A (m.put A q s b).1 ∧
    (∀ j, lookup (m.put A q s b).1 j = if j = ⟨s, q⟩ then some b else lookup m j) ∧
    (m.put A q s b).2 = lookup m ⟨s, q⟩ ∧
    (b :: m.map (·.buf)).Perm ((m.put A q s b).1.map (·.buf) ++ (m.put A q s b).2.toList) ∧
    (∀ e ∈ (m.put A q s b).1, e ∈ m ∨ e = ⟨s, q, b⟩) := by
  rcases search_split h q s with ⟨pre, e, post, rfl, he, hs, hl, hr⟩ | ⟨pre, post, rfl, hs, hl, hr⟩
  · rw [put_found b hs]
    have hk : ({ e with buf := b } : Entry E Q B).key = ⟨s, q⟩ := he
    have hes : (⟨e.stat, e.qual, b⟩ : Entry E Q B) = ⟨s, q, b⟩ := by
      have h1 : e.stat = s := congrArg Key.stat he
      have h2 : e.qual = q := congrArg Key.qual he
      rw [h1, h2]
    refine ⟨?_, fun j => ?_, ?_, ?_, ?_⟩
    · obtain ⟨h1, h2, h3⟩ := sorted_append.1 h
      refine sorted_append.2 ⟨h1, sorted_cons.2 (sorted_cons.1 h2), ?_⟩
      intro x hx y hy
      rcases List.mem_cons.1 hy with rfl | hy
      · exact h3 x hx e (by simp)
      · exact h3 x hx y (by simp [hy])
    · split
      · rename_i hj
        rw [hj, lookup_append_of_ne (fun x hx => (hl x hx).ne), lookup_cons_self hk]
      · rename_i hj
        rw [lookup_middle_ne hk hj, lookup_middle_ne he hj]
    · rw [lookup_append_of_ne (fun x hx => (hl x hx).ne), lookup_cons_self he]
    · simp only [List.map_append, List.map_cons, Option.toList_some, List.append_assoc, List.cons_append]
      have h1 : (b :: (pre.map (·.buf) ++ e.buf :: post.map (·.buf))).Perm
          (pre.map (·.buf) ++ b :: e.buf :: post.map (·.buf)) := List.perm_middle.symm
      refine h1.trans (List.Perm.append_left _ (List.Perm.cons _ ?_))
      exact (List.perm_append_singleton _ _).symm
    · intro x hx
      rcases List.mem_append.1 hx with hx | hx
      · exact .inl (by simp [hx])
      · rcases List.mem_cons.1 hx with rfl | hx
        · exact .inr hes
        · exact .inl (by simp [hx])
  · rw [put_absent b hs]
    have hk : (⟨s, q, b⟩ : Entry E Q B).key = ⟨s, q⟩ := rfl
    refine ⟨?_, fun j => ?_, ?_, ?_, ?_⟩
    · obtain ⟨h1, h2, h3⟩ := sorted_append.1 h
      refine sorted_append.2 ⟨h1, sorted_cons.2 ⟨hr, h2⟩, ?_⟩
      intro x hx y hy
      rcases List.mem_cons.1 hy with rfl | hy
      · exact hl x hx
      · exact h3 x hx y hy
    · split
      · rename_i hj
        rw [hj, lookup_append_of_ne (fun x hx => (hl x hx).ne), lookup_cons_self hk]
      · rename_i hj
        exact lookup_middle_ne hk hj
    · rw [lookup_eq_none]
      intro x hx
      rcases List.mem_append.1 hx with hx | hx
      · exact (hl x hx).ne
      · exact (hr x hx).ne.symm
    · simp only [List.map_append, List.map_cons, Option.toList_none, List.append_nil]
      exact List.perm_middle.symm
    · intro x hx
      rcases List.mem_append.1 hx with hx | hx
      · exact .inl (by simp [hx])
      · rcases List.mem_cons.1 hx with rfl | hx
        · exact .inr rfl
        · exact .inl (by simp [hx])

/-- overwriting in place is putting, when the key is present -/
theorem update_spec {m : Vec E Q B} (h : Sorted A m) (q : Qualifier Q) (s : StatInst E) (b : B) :
    m.update A q s b = if (lookup m ⟨s, q⟩).isSome then (m.put A q s b).1 else m := by
  have hfind := find_eq h q s
  unfold find at hfind
  unfold update put
  rcases search_split h q s with ⟨pre, e, post, rfl, he, hs, hl, hr⟩ | ⟨pre, post, rfl, hs, hl, hr⟩
  · rw [hs] at hfind ⊢
    rw [lookup_append_of_ne (fun x hx => (hl x hx).ne), lookup_cons_self he]
    simp
  · rw [hs] at hfind ⊢
    simp only at hfind
    simp [← hfind]

/-- removing a key -/
theorem pull_spec {m : Vec E Q B} (h : Sorted A m) (q : Qualifier Q) (s : StatInst E) :
    Sorted A (m.pull A q s).1 ∧
    (∀ j, lookup (m.pull A q s).1 j = if j = ⟨s, q⟩ then none else lookup m j) ∧
    (m.pull A q s).2 = lookup m ⟨s, q⟩ ∧
    (m.map (·.buf)).Perm ((m.pull A q s).1.map (·.buf) ++ (m.pull A q s).2.toList) ∧
    (∀ e ∈ (m.pull A q s).1, e ∈ m) := by
  rcases search_split h q s with ⟨pre, e, post, rfl, he, hs, hl, hr⟩ | ⟨pre, post, rfl, hs, hl, hr⟩
  · rw [pull_found hs]
    refine ⟨?_, fun j => ?_, ?_, ?_, ?_⟩
    · obtain ⟨h1, h2, h3⟩ := sorted_append.1 h
      exact sorted_append.2 ⟨h1, (sorted_cons.1 h2).2, fun x hx y hy => h3 x hx y (by simp [hy])⟩
    · split
      · rename_i hj
        rw [hj, lookup_eq_none]
        intro x hx
        rcases List.mem_append.1 hx with hx | hx
        · exact (hl x hx).ne
        · exact (hr x hx).ne.symm
      · rename_i hj
        exact (lookup_middle_ne he hj).symm
    · rw [lookup_append_of_ne (fun x hx => (hl x hx).ne), lookup_cons_self he]
    · simp only [List.map_append, List.map_cons, Option.toList_some, List.append_assoc]
      exact List.Perm.append_left _ (List.perm_append_singleton _ _).symm
    · intro x hx
      rcases List.mem_append.1 hx with hx | hx <;> simp [hx]
  · rw [pull_absent hs]
    have hn : lookup (pre ++ post) ⟨s, q⟩ = none := by
      rw [lookup_eq_none]
      intro x hx
      rcases List.mem_append.1 hx with hx | hx
      · exact (hl x hx).ne
      · exact (hr x hx).ne.symm
    refine ⟨h, fun j => ?_, hn.symm, by simp, fun e he => he⟩
    show lookup (pre ++ post) j = _
    split
    · rename_i hj
      rw [hj]; exact hn
    · rfl

theorem Sorted.stat_le {m : Vec E Q B} (h : Sorted A m) :
    m.Pairwise (fun a b => a.stat.cmp A b.stat ≠ .gt) := by
  refine (List.pairwise_map.1 h).imp ?_
  intro a b hab hgt
  have : (Key.cmp A a.key b.key) = .gt := by
    show (a.stat.cmp A b.stat).then _ = .gt
    rw [hgt]; rfl
  unfold KLt at hab
  rw [this] at hab; cases hab

omit [Std.TransOrd Q] [Std.LawfulEqOrd Q] [DecidableEq Q] in
/-- the entries of one stat -/
theorem range_le {m : Vec E Q B} (hle : m.Pairwise (fun a b => a.stat.cmp A b.stat ≠ .gt)) (s : StatInst E) :
    (m.range A s).1 ≤ (m.range A s).2 ∧ (m.range A s).2 ≤ m.length ∧
    m.take (m.range A s).1 = m.filter (fun e => e.stat.cmp A s == .lt) ∧
    (m.take (m.range A s).2).drop (m.range A s).1 = m.filter (fun e => decide (e.stat = s)) ∧
    m.drop (m.range A s).2 = m.filter (fun e => e.stat.cmp A s == .gt) := by
  have hp1 : m.Pairwise (fun a b => (b.stat.cmp A s == .lt) = true → (a.stat.cmp A s == .lt) = true) := by
    refine hle.imp ?_
    intro a b hab hb
    simp only [beq_iff_eq] at hb ⊢
    exact Std.TransCmp.lt_of_isLE_of_lt (cmp := StatInst.cmp A) (Ordering.isLE_iff_ne_gt.2 hab) hb
  have hp2 : m.Pairwise (fun a b => (b.stat.cmp A s != .gt) = true → (a.stat.cmp A s != .gt) = true) := by
    refine hle.imp ?_
    intro a b hab hb
    simp only [bne_iff_ne] at hb ⊢
    exact Ordering.isLE_iff_ne_gt.1 (Std.TransCmp.isLE_trans (cmp := StatInst.cmp A)
      (Ordering.isLE_iff_ne_gt.2 hab) (Ordering.isLE_iff_ne_gt.2 hb))
  obtain ⟨a1, a2, a3⟩ := partitionPoint_spec hp1
  obtain ⟨b1, b2, b3⟩ := partitionPoint_spec hp2
  have hr : m.range A s = (partitionPoint m (fun x => x.stat.cmp A s == .lt),
    partitionPoint m (fun x => x.stat.cmp A s != .gt)) := rfl
  rw [hr]
  have hlen : partitionPoint m (fun x => x.stat.cmp A s == .lt) ≤
      partitionPoint m (fun x => x.stat.cmp A s != .gt) := by
    have e1 := congrArg List.length a2
    have e2 := congrArg List.length b2
    rw [List.length_take, Nat.min_eq_left a1] at e1
    rw [List.length_take, Nat.min_eq_left b1] at e2
    rw [e1, e2]
    refine List.Sublist.length_le (List.monotone_filter_right _ ?_)
    intro x hx
    simp only [beq_iff_eq] at hx
    simp [hx]
  refine ⟨hlen, b1, a2, ?_, ?_⟩
  · have htt : (m.take (partitionPoint m (fun x => x.stat.cmp A s != .gt))).take
        (partitionPoint m (fun x => x.stat.cmp A s == .lt)) =
        m.filter (fun x => x.stat.cmp A s == .lt) := by
      rw [List.take_take, Nat.min_eq_left hlen, a2]
    have e3 : (m.take (partitionPoint m (fun x => x.stat.cmp A s != .gt))).drop
        (partitionPoint m (fun x => x.stat.cmp A s == .lt)) =
        (m.drop (partitionPoint m (fun x => x.stat.cmp A s == .lt))).take
        (partitionPoint m (fun x => x.stat.cmp A s != .gt) -
          partitionPoint m (fun x => x.stat.cmp A s == .lt)) := List.drop_take ..
    -- drop of the smaller prefix, restricted to the not-greater ones
    have hp3 : (m.filter (fun x => x.stat.cmp A s != .gt)).Pairwise
        (fun a b => (b.stat.cmp A s == .lt) = true → (a.stat.cmp A s == .lt) = true) :=
      hp1.sublist List.filter_sublist
    rw [b2]
    have hd : (m.filter (fun x => x.stat.cmp A s != .gt)).take
        (partitionPoint m (fun x => x.stat.cmp A s == .lt)) ++
        m.filter (fun e => decide (e.stat = s)) = m.filter (fun x => x.stat.cmp A s != .gt) := by
      rw [← b2, htt]
      -- split the not-greater prefix by the pred
      obtain ⟨c1, c2, c3⟩ := partitionPoint_spec hp3
      have := List.take_append_drop (partitionPoint (m.filter (fun x => x.stat.cmp A s != .gt))
        (fun x => x.stat.cmp A s == .lt)) (m.filter (fun x => x.stat.cmp A s != .gt))
      rw [c2, c3, List.filter_filter, List.filter_filter] at this
      rw [b2, ← this]
      congr 1
      · refine List.filter_congr ?_
        intro x _
        cases x.stat.cmp A s <;> rfl
      · refine List.filter_congr ?_
        intro x _
        have : decide (x.stat = s) = (x.stat.cmp A s == .eq) := by
          rw [Bool.eq_iff_iff, decide_eq_true_iff, beq_iff_eq]
          exact (Std.LawfulEqCmp.compare_eq_iff_eq (cmp := StatInst.cmp A)).symm
        rw [this]
        cases x.stat.cmp A s <;> rfl
    have hl : ((m.filter (fun x => x.stat.cmp A s != .gt)).take
        (partitionPoint m (fun x => x.stat.cmp A s == .lt))).length =
        partitionPoint m (fun x => x.stat.cmp A s == .lt) := by
      rw [List.length_take, ← b2, List.length_take, Nat.min_eq_left b1, Nat.min_eq_left hlen]
    conv_lhs => rw [← hd]
    conv_lhs => rw [← hl]
    rw [List.length_take]
    rw [List.drop_append_of_le_length]
    · simp
    · simp
  · rw [b3]
    refine List.filter_congr ?_
    intro x _
    cases x.stat.cmp A s <;> rfl

theorem range_spec {m : Vec E Q B} (h : Sorted A m) (s : StatInst E) :
    (m.range A s).1 ≤ (m.range A s).2 ∧ (m.range A s).2 ≤ m.length ∧
    m.take (m.range A s).1 = m.filter (fun e => e.stat.cmp A s == .lt) ∧
    (m.take (m.range A s).2).drop (m.range A s).1 = m.filter (fun e => decide (e.stat = s)) ∧
    m.drop (m.range A s).2 = m.filter (fun e => e.stat.cmp A s == .gt) := range_le h.stat_le s

end Vec
end BSQ

namespace BSQ.Vec
open BSQ
variable {E : Env} {Q B : Type} [Ord Q] [Std.TransOrd Q] [Std.LawfulEqOrd Q] {A : Addr E}
  [DecidableEq Q]

omit [Std.TransOrd Q] [Std.LawfulEqOrd Q] [DecidableEq Q] in
/-- a sorted vector is what is below, at and above a stat -/
theorem split_le {m : Vec E Q B} (h : m.Pairwise (fun a b => a.stat.cmp A b.stat ≠ .gt)) (s : StatInst E) :
    m = m.filter (fun e => e.stat.cmp A s == .lt) ++ (m.filter (fun e => decide (e.stat = s)) ++
      m.filter (fun e => e.stat.cmp A s == .gt)) := by
  obtain ⟨h1, h2, h3, h4, h5⟩ := range_le h s
  rw [← h3, ← h4, ← h5]
  have e1 : m.take (m.range A s).1 = (m.take (m.range A s).2).take (m.range A s).1 := by
    rw [List.take_take, Nat.min_eq_left h1]
  rw [e1, ← List.append_assoc, List.take_append_drop, List.take_append_drop]

omit [Std.TransOrd Q] [Std.LawfulEqOrd Q] [DecidableEq Q] in
theorem slice_le {m : Vec E Q B} (h : m.Pairwise (fun a b => a.stat.cmp A b.stat ≠ .gt)) (s : StatInst E) :
    m.slice A s = .ok (m.filter (fun e => decide (e.stat = s))) := by
  obtain ⟨h1, h2, h3, h4, h5⟩ := range_le h s
  unfold slice
  simp only [h4]
  rw [if_neg (by omega)]

omit [Std.TransOrd Q] [Std.LawfulEqOrd Q] [DecidableEq Q] in
theorem stat_cmp_lt_ne {a b : StatInst E} (h : a.cmp A b = .lt) : a ≠ b := by
  rintro rfl
  rw [Std.ReflCmp.compare_self (cmp := StatInst.cmp A)] at h; cases h
omit [Std.TransOrd Q] [Std.LawfulEqOrd Q] [DecidableEq Q] in
theorem stat_cmp_gt_ne {a b : StatInst E} (h : a.cmp A b = .gt) : a ≠ b := by
  rintro rfl
  rw [Std.ReflCmp.compare_self (cmp := StatInst.cmp A)] at h; cases h

omit [Std.TransOrd Q] [Std.LawfulEqOrd Q] [DecidableEq Q] in
theorem removeAll_le {m : Vec E Q B} (h : m.Pairwise (fun a b => a.stat.cmp A b.stat ≠ .gt)) (s : StatInst E) :
    m.removeAll A s =
      .ok (m.filter (fun e => decide (e.stat ≠ s)), m.filter (fun e => decide (e.stat = s))) := by
  obtain ⟨h1, h2, h3, h4, h5⟩ := range_le h s
  unfold removeAll
  simp only [h3, h4, h5]
  rw [if_neg (by omega)]
  congr 2
  conv_rhs => rw [split_le h s]
  simp only [List.filter_append, List.filter_filter]
  have e2 : m.filter (fun a => decide (a.stat ≠ s) && decide (a.stat = s)) = [] := by
    rw [List.filter_eq_nil_iff]; intro a _; simp; 
  rw [e2, List.nil_append]
  congr 1
  · refine List.filter_congr ?_
    intro x _
    cases hx : x.stat.cmp A s
    · simp [stat_cmp_lt_ne hx]
    · simp
    · simp
  · refine List.filter_congr ?_
    intro x _
    cases hx : x.stat.cmp A s
    · simp
    · simp
    · simp [stat_cmp_gt_ne hx]

theorem split_stat {m : Vec E Q B} (h : Sorted A m) (s : StatInst E) :
    m = m.filter (fun e => e.stat.cmp A s == .lt) ++ (m.filter (fun e => decide (e.stat = s)) ++
      m.filter (fun e => e.stat.cmp A s == .gt)) := split_le h.stat_le s

theorem slice_eq {m : Vec E Q B} (h : Sorted A m) (s : StatInst E) :
    m.slice A s = .ok (m.filter (fun e => decide (e.stat = s))) := slice_le h.stat_le s

theorem removeAll_eq {m : Vec E Q B} (h : Sorted A m) (s : StatInst E) :
    m.removeAll A s =
      .ok (m.filter (fun e => decide (e.stat ≠ s)), m.filter (fun e => decide (e.stat = s))) :=
  removeAll_le h.stat_le s

theorem mapM_ok_of {α : Type} {f : α → Res α} {l : List α} (h : ∀ x ∈ l, f x = .ok x) :
    l.mapM f = .ok l := by
  induction l with
  | nil => rfl
  | cons x l ih =>
    rw [List.mapM_cons, h x (by simp), ih (fun y hy => h y (by simp [hy]))]
    rfl

/-- what `iter_mut` does to one entry -/
def touch (s : StatInst E) (f : B → Res B) (e : Entry E Q B) : Res (Entry E Q B) :=
  if e.stat = s then (f e.buf >>= fun b => .ok { e with buf := b }) else .ok e

omit [Std.TransOrd Q] [Std.LawfulEqOrd Q] [DecidableEq Q] in
theorem sliceMut_le {m : Vec E Q B} (h : m.Pairwise (fun a b => a.stat.cmp A b.stat ≠ .gt)) (s : StatInst E)
    (f : B → Res B) : m.sliceMut A s f = m.mapM (touch s f) := by
  obtain ⟨h1, h2, h3, h4, h5⟩ := range_le h s
  unfold sliceMut
  simp only [h3, h4, h5]
  rw [if_neg (by omega)]
  conv_rhs => rw [split_le h s]
  rw [List.mapM_append, List.mapM_append]
  rw [mapM_ok_of (l := m.filter (fun e => e.stat.cmp A s == .lt)),
    mapM_ok_of (l := m.filter (fun e => e.stat.cmp A s == .gt))]
  · have e1 : (m.filter (fun e => decide (e.stat = s))).mapM (touch s f) =
        (m.filter (fun e => decide (e.stat = s))).mapM (fun e => do
          let b ← f e.buf
          .ok { e with buf := b }) := by
      have : ∀ l : Vec E Q B, (∀ x ∈ l, x.stat = s) → l.mapM (touch s f) = l.mapM (fun e => do
          let b ← f e.buf
          .ok { e with buf := b }) := by
        intro l
        induction l with
        | nil => intro _; rfl
        | cons x l ih =>
          intro hl
          rw [List.mapM_cons, List.mapM_cons, ih (fun y hy => hl y (by simp [hy]))]
          simp only [touch, hl x (by simp), if_true]
      exact this _ (by simp)
    rw [e1]
    cases List.mapM (fun e : Entry E Q B => do
      let b ← f e.buf
      (Except.ok { e with buf := b } : Res _)) (m.filter (fun e => decide (e.stat = s))) with
    | error e => rfl
    | ok l => simp
  · intro x hx
    simp only [List.mem_filter, beq_iff_eq] at hx
    simp [touch, stat_cmp_gt_ne hx.2]
  · intro x hx
    simp only [List.mem_filter, beq_iff_eq] at hx
    simp [touch, stat_cmp_lt_ne hx.2]

theorem sliceMut_eq {m : Vec E Q B} (h : Sorted A m) (s : StatInst E) (f : B → Res B) :
    m.sliceMut A s f = m.mapM (touch s f) := sliceMut_le h.stat_le s f

theorem mem_iff_lookup {m : Vec E Q B} (h : Sorted A m) (e : Entry E Q B) :
    e ∈ m ↔ lookup m e.key = some e.buf := by
  constructor
  · exact lookup_mem h
  · intro hl
    obtain ⟨e', he', hk, hb⟩ := mem_lookup hl
    have h1 : e'.stat = e.stat := congrArg Key.stat hk
    have h2 : e'.qual = e.qual := congrArg Key.qual hk
    cases e; cases e'
    simp only at h1 h2 hb
    subst h1 h2 hb
    exact he'

/-- a sorted vector is determined by its lookups -/
theorem ext_lookup {m m' : Vec E Q B} (h : Sorted A m) (h' : Sorted A m')
    (hl : ∀ k, lookup m k = lookup m' k) : m = m' := by
  have n1 : m.Nodup := List.Nodup.of_map _ h.nodup
  have n2 : m'.Nodup := List.Nodup.of_map _ h'.nodup
  have hp : m.Perm m' := by
    rw [List.perm_ext_iff_of_nodup n1 n2]
    intro e
    rw [mem_iff_lookup h, mem_iff_lookup h', hl]
  refine List.Perm.eq_of_pairwise (le := fun a b => KLt A a.key b.key) ?_ (List.pairwise_map.1 h)
    (List.pairwise_map.1 h') hp
  intro a b _ _ hab hba
  exact absurd rfl (hab.trans hba).ne

theorem sorted_filter {m : Vec E Q B} (h : Sorted A m) (p : Entry E Q B → Bool) : Sorted A (m.filter p) :=
  List.pairwise_map.2 ((List.pairwise_map.1 h).sublist List.filter_sublist)

theorem lookup_filter_stat {m : Vec E Q B} (s : StatInst E) (k : Key E Q) :
    lookup (m.filter (fun e => decide (e.stat ≠ s))) k = if k.stat = s then none else lookup m k := by
  split
  · rename_i hk
    rw [lookup_eq_none]
    intro x hx he
    simp only [List.mem_filter, decide_eq_true_eq] at hx
    exact hx.2 (by rw [← hk, ← he])
  · rename_i hk
    unfold lookup
    rw [List.find?_filter]
    congr 1
    congr 1
    funext e
    rw [Bool.eq_iff_iff]
    simp only [decide_eq_true_eq]
    constructor
    · rintro h; exact h.2
    · intro h; exact ⟨fun hs => hk (by rw [← h]; exact hs), h⟩

end BSQ.Vec

/-! ### vectors of unknown order -/
namespace BSQ.Vec
variable {E : Env} {Q : Type} {B : Type} [Ord Q] [Std.TransOrd Q] [Std.LawfulEqOrd Q] {A : Addr E}

omit [Std.TransOrd Q] in
theorem search_ok_key {m : Vec E Q B} {q : Qualifier Q} {s : StatInst E} {i : Nat} (h : m.search A q s = .ok i) :
    ∃ hi : i < m.length, m[i].key = ⟨s, q⟩ := by
  unfold search binarySearchBy at h
  simp only at h
  split at h
  · cases h
  · rename_i h0
    split at h
    · rename_i hc
      obtain rfl := Except.ok.inj h
      cases hx : m[bsLoop (fun i => (m[i]?).elim .gt fun e => e.keyCmp A s q) m.length 0 m.length]? with
      | none => rw [hx] at hc; cases hc
      | some x =>
        obtain ⟨hi, hx'⟩ := List.getElem?_eq_some_iff.1 hx
        rw [hx] at hc
        refine ⟨hi, ?_⟩
        rw [hx']
        exact Std.LawfulEqCmp.eq_of_compare (cmp := Key.cmp A) hc
    · cases h
    · cases h

/-- a vector with distinct keys in which every one is found is sorted -/
theorem sorted_of_found {m : Vec E Q B} (hn : (m.map Entry.key).Nodup)
    (h : ∀ e ∈ m, (m.find A e.qual e.stat).isSome) : Sorted A m := by
  have hs : ∀ i (hi : i < m.length), m.search A m[i].qual m[i].stat = .ok i := by
    intro i hi
    have hf := h m[i] (List.getElem_mem hi)
    unfold find at hf
    cases hx : m.search A m[i].qual m[i].stat with
    | error j => rw [hx] at hf; cases hf
    | ok j =>
      obtain ⟨hj, hk⟩ := search_ok_key hx
      have : j = i := by
        refine (hn.getElem_inj_iff (hi := by simpa using hj) (hj := by simpa using hi)).1 ?_
        rw [List.getElem_map, List.getElem_map]
        exact hk
      rw [this]
  unfold Sorted
  rw [List.pairwise_map, List.pairwise_iff_getElem]
  intro i j hi hj hij
  obtain ⟨x, _, h1, h2⟩ := binarySearchBy_order m _ _ hij (hs i hi) (hs j hj)
  have h1 : Key.cmp A x.key m[i].key = .gt := h1
  have h2 : Key.cmp A x.key m[j].key ≠ .gt := h2
  have h1' : KLt A m[i].key x.key := KLt.gt.2 h1
  cases hc : Key.cmp A x.key m[j].key with
  | lt => exact h1'.trans hc
  | eq => rw [← (Std.LawfulEqCmp.eq_of_compare (cmp := Key.cmp A) hc : x.key = m[j].key)]; exact h1'
  | gt => exact absurd hc h2

end BSQ.Vec
