import Verif.Spec.Multimap
import Verif.Proofs.StatMap
/-! Helper lemmas: vectors with repeated keys, sorted weakly. -/
set_option linter.unusedSectionVars false
namespace BSQ
variable {E : Env} {Q : Type}

/-- a keyed value as an entry of the vector -/
def Keyed.entry (x : Keyed E Q) : Entry E Q (Buf E) := ⟨x.1.stat, x.1.qual, .val x.1.stat.ty x.2⟩

variable [DecidableEq Q] [Ord Q] [Std.TransOrd Q] [Std.LawfulEqOrd Q] {A : Addr E}

/-- the vector holds exactly the list `l` -/
structure BRep (A : Addr E) (m : StatMap E Q) (l : List (Keyed E Q)) : Prop where
  eq : m = l.map Keyed.entry
  sorted : (l.map (·.1)).Pairwise (fun a b => Key.cmp A a b ≠ .gt)
  storable : ∀ x ∈ l, Storable (E.layout x.1.stat.ty)

namespace BRep
variable {m : StatMap E Q} {l : List (Keyed E Q)}

theorem nil : BRep A ([] : StatMap E Q) [] := ⟨rfl, by simp, by simp⟩

theorem le_lt {a b c : Key E Q} (h : Key.cmp A a b ≠ .gt) (h' : Vec.KLt A b c) : Vec.KLt A a c :=
  Std.TransCmp.lt_of_isLE_of_lt (cmp := Key.cmp A) (Ordering.isLE_iff_ne_gt.2 h) h'

theorem lt_le {a b c : Key E Q} (h : Vec.KLt A a b) (h' : Key.cmp A b c ≠ .gt) : Vec.KLt A a c :=
  Std.TransCmp.lt_of_lt_of_isLE (cmp := Key.cmp A) h (Ordering.isLE_iff_ne_gt.2 h')

theorem search (h : BRep A m l) (q : Qualifier Q) (s : StatInst E) :
    (∃ pre v post, l = pre ++ (⟨⟨s, q⟩, v⟩ : Keyed E Q) :: post ∧ Vec.search A m q s = .ok pre.length) ∨
    (∃ pre post, l = pre ++ post ∧ Vec.search A m q s = .error pre.length ∧
      (∀ x ∈ pre, Vec.KLt A x.1 ⟨s, q⟩) ∧ ∀ x ∈ post, Vec.KLt A ⟨s, q⟩ x.1) := by
  obtain ⟨rfl, hs, -⟩ := h
  have hk : ∀ x : Keyed E Q, (Keyed.entry x).keyCmp A s q = Key.cmp A x.1 ⟨s, q⟩ := fun _ => rfl
  have ho : Ordered (l.map Keyed.entry) (fun e => e.keyCmp A s q) := by
    unfold Ordered
    rw [List.pairwise_map] at hs ⊢
    refine hs.imp ?_
    intro a b hab
    simp only [hk]
    refine ⟨fun hgt => ?_, fun hlt => le_lt hab hlt⟩
    exact Vec.KLt.gt.1 (lt_le (Vec.KLt.gt.2 hgt) hab)
  have key := binarySearchBy_spec ho
  unfold Vec.search
  split at key
  · rename_i i hi
    obtain ⟨hil, he⟩ := key
    left
    simp only [List.length_map] at hil
    simp only [List.getElem_map, hk] at he
    have hke := Std.LawfulEqCmp.eq_of_compare (cmp := Key.cmp A) he
    generalize hx : l[i] = x at hke
    obtain ⟨k, v⟩ := x
    simp only at hke
    subst hke
    refine ⟨l.take i, v, l.drop (i + 1), ?_, ?_⟩
    · rw [← hx]; simp
    · rw [hi]; simp; omega
  · rename_i i hi
    obtain ⟨hil, h2, h3⟩ := key
    right
    simp only [List.length_map] at hil h2 h3
    refine ⟨l.take i, l.drop i, by simp, by rw [hi]; simp; omega, ?_, ?_⟩
    · intro x hx
      obtain ⟨j, hj, rfl⟩ := List.mem_iff_getElem.1 hx
      simp only [List.length_take] at hj
      rw [List.getElem_take]
      have := h2 j (by omega) (by omega)
      rwa [List.getElem_map, hk] at this
    · intro x hx
      obtain ⟨j, hj, rfl⟩ := List.mem_iff_getElem.1 hx
      simp only [List.length_drop] at hj
      rw [List.getElem_drop]
      have := h3 (i + j) (by omega) (by omega)
      rw [List.getElem_map, hk] at this
      exact Vec.KLt.gt.2 this

/-- the value a search finds, if any -/
theorem cases_key (h : BRep A m l) (q : Qualifier Q) (s : StatInst E) :
    (∃ pre v post, l = pre ++ (⟨⟨s, q⟩, v⟩ : Keyed E Q) :: post ∧ StatMap.get A m q s = .ok (some v) ∧
      Vec.pull A m q s = ((pre ++ post).map Keyed.entry, some (.val s.ty v)) ∧ Storable (E.layout s.ty) ∧
      ∀ v', Vec.update A m q s (.val s.ty v') = (pre ++ (⟨⟨s, q⟩, v'⟩ : Keyed E Q) :: post).map Keyed.entry ∧
        (Vec.put A m q s (.val s.ty v')).1 = (pre ++ (⟨⟨s, q⟩, v'⟩ : Keyed E Q) :: post).map Keyed.entry) ∨
    (∃ pre post, l = pre ++ post ∧ (∀ x ∈ l, x.1 ≠ ⟨s, q⟩) ∧ StatMap.get A m q s = .ok none ∧
      Vec.pull A m q s = (m, none) ∧
      (∀ x ∈ pre, Vec.KLt A x.1 ⟨s, q⟩) ∧ (∀ x ∈ post, Vec.KLt A ⟨s, q⟩ x.1) ∧
      ∀ v', (Vec.put A m q s (.val s.ty v')).1 = (pre ++ (⟨⟨s, q⟩, v'⟩ : Keyed E Q) :: post).map Keyed.entry) := by
  rcases h.search q s with ⟨pre, v, post, e, hs⟩ | ⟨pre, post, e, hs, h1, h2⟩
  · left
    have hst : Storable (E.layout s.ty) := h.storable ⟨⟨s, q⟩, v⟩ (by rw [e]; simp)
    have hm : m = pre.map Keyed.entry ++ ⟨s, q, .val s.ty v⟩ :: post.map Keyed.entry := by
      rw [h.eq, e]; simp [Keyed.entry]
    rw [← List.length_map (f := Keyed.entry)] at hs
    refine ⟨pre, v, post, e, ?_, ?_, hst, fun v' => ⟨?_, ?_⟩⟩
    · unfold StatMap.get Vec.find
      rw [hs, hm]
      simp only [List.getElem?_append_right (Nat.le_refl _), Nat.sub_self, List.getElem?_cons_zero, Option.map_some,
        StatMap.readAs, Buf.read_val hst, Res.bind_ok]
    · rw [hm] at hs ⊢
      rw [Vec.pull_found hs]; simp
    · unfold Vec.update
      rw [hs, hm]
      simp only [modify_mid]; simp [Keyed.entry]
    · rw [hm] at hs ⊢
      rw [Vec.put_found _ hs]; simp [Keyed.entry]
  · right
    have hm : m = pre.map Keyed.entry ++ post.map Keyed.entry := by rw [h.eq, e]; simp
    rw [← List.length_map (f := Keyed.entry)] at hs
    refine ⟨pre, post, e, ?_, ?_, Vec.pull_absent hs, h1, h2, fun v' => ?_⟩
    · intro x hx
      rw [e, List.mem_append] at hx
      rcases hx with hx | hx
      · exact (h1 x hx).ne
      · exact (h2 x hx).ne.symm
    · unfold StatMap.get Vec.find
      rw [hs]; rfl
    · rw [hm] at hs ⊢
      rw [Vec.put_absent _ hs]; simp [Keyed.entry]

theorem keys_mid {pre post : List (Keyed E Q)} {k : Key E Q} {v v' : k.Val} :
    (pre ++ (⟨k, v⟩ : Keyed E Q) :: post).map (·.1) = (pre ++ (⟨k, v'⟩ : Keyed E Q) :: post).map (·.1) := by simp

theorem replaced {pre post : List (Keyed E Q)} {k : Key E Q} {v : k.Val} (v' : k.Val)
    (h : BRep A m (pre ++ (⟨k, v⟩ : Keyed E Q) :: post)) :
    BRep A ((pre ++ (⟨k, v'⟩ : Keyed E Q) :: post).map Keyed.entry) (pre ++ (⟨k, v'⟩ : Keyed E Q) :: post) := by
  refine ⟨rfl, by rw [keys_mid (v' := v)]; exact h.sorted, ?_⟩
  intro x hx
  have hst := h.storable
  simp only [List.mem_append, List.mem_cons] at hx hst
  rcases hx with hx | rfl | hx
  · exact hst x (.inl hx)
  · exact hst ⟨k, v⟩ (.inr (.inl rfl))
  · exact hst x (.inr (.inr hx))

theorem added {pre post : List (Keyed E Q)} {k : Key E Q} (v : k.Val) (h : BRep A m (pre ++ post))
    (h1 : ∀ x ∈ pre, Vec.KLt A x.1 k) (h2 : ∀ x ∈ post, Vec.KLt A k x.1) (hs : Storable (E.layout k.stat.ty)) :
    BRep A ((pre ++ (⟨k, v⟩ : Keyed E Q) :: post).map Keyed.entry) (pre ++ (⟨k, v⟩ : Keyed E Q) :: post) := by
  have hle : ∀ {a b : Key E Q}, Vec.KLt A a b → Key.cmp A a b ≠ .gt := by
    intro a b hab; unfold Vec.KLt at hab; rw [hab]; simp
  refine ⟨rfl, ?_, ?_⟩
  · have := h.sorted
    simp only [List.map_append, List.map_cons, List.pairwise_append, List.pairwise_cons, List.mem_cons,
      List.mem_map] at this ⊢
    obtain ⟨p1, p2, p3⟩ := this
    refine ⟨p1, ⟨?_, p2⟩, ?_⟩
    · rintro _ ⟨x, hx, rfl⟩; exact hle (h2 x hx)
    · rintro a ha b (rfl | hb)
      · obtain ⟨x, hx, rfl⟩ := ha; exact hle (h1 x hx)
      · exact p3 a ha b hb
  · intro x hx
    have hst := h.storable
    simp only [List.mem_append, List.mem_cons] at hx hst
    rcases hx with hx | rfl | hx
    · exact hst x (.inl hx)
    · exact hs
    · exact hst x (.inr hx)

theorem removed {pre post : List (Keyed E Q)} {x : Keyed E Q} (h : BRep A m (pre ++ x :: post)) :
    BRep A ((pre ++ post).map Keyed.entry) (pre ++ post) := by
  have hsub : (pre ++ post).Sublist (pre ++ x :: post) := by simp
  exact ⟨rfl, h.sorted.sublist (hsub.map _), fun y hy => h.storable y (hsub.mem hy)⟩

theorem stat_le (h : BRep A m l) : m.Pairwise (fun a b => a.stat.cmp A b.stat ≠ .gt) := by
  obtain ⟨rfl, hs, -⟩ := h
  rw [List.pairwise_map] at hs ⊢
  refine hs.imp ?_
  intro a b hab hgt
  apply hab
  show (a.1.stat.cmp A b.1.stat).then _ = .gt
  have : a.1.stat.cmp A b.1.stat = .gt := hgt
  rw [this]; rfl

theorem bufs (h : BRep A m l) : ∀ e ∈ m, ∃ x, e.buf = .val e.stat.ty x ∧ Storable (E.layout e.stat.ty) := by
  obtain ⟨rfl, -, hs⟩ := h
  intro e he
  obtain ⟨x, hx, rfl⟩ := List.mem_map.1 he
  exact ⟨x.2, rfl, hs x hx⟩

theorem perm_swap {pre post : List (Keyed E Q)} {x : Keyed E Q} :
    ((pre ++ x :: post : List (Keyed E Q)) : Bag E Q) = x ::ₘ ((pre ++ post : List (Keyed E Q)) : Bag E Q) := by
  rw [Multiset.cons_coe, Multiset.coe_eq_coe]; exact List.perm_middle

/-- a call that returns: what has become of the contents -/
def Good (A : Addr E) (l : List (Keyed E Q)) (o : MultiOp E Q) : Res (StatMap E Q) → Prop
  | .ok m' => ∃ l', BRep A m' l' ∧ Bag.MultiStep (↑l) (↑l') o
  | .error e => Bag.MultiFails (↑l : Bag E Q) e o

theorem insert (h : BRep A m l) (q : Qualifier Q) (s : StatInst E) (v : s.Val) :
    Good A l (.one (.insert q s v)) (StatMap.insert A m q s v) := by
  unfold StatMap.insert
  rw [Buf.from_eq]
  by_cases hs : Storable (E.layout s.ty)
  · rw [if_pos hs]
    simp only [Res.bind_ok]
    rcases h.cases_key q s with ⟨pre, u, post, rfl, -, -, -, hp⟩ | ⟨pre, post, rfl, ha, -, -, h1, h2, hp⟩
    · rw [(hp v).2]
      exact ⟨_, h.replaced v, hs, .inl ⟨u, v, _, perm_swap, rfl, perm_swap⟩⟩
    · rw [hp v]
      exact ⟨_, h.added v h1 h2 hs, hs, .inr ⟨ha, hs, perm_swap⟩⟩
  · rw [if_neg hs]; exact ⟨hs, rfl⟩

/-- the shared shape of `modify` and `modify_with` -/
theorem modifyWith (h : BRep A m l) (q : Qualifier Q) (s : StatInst E) (f : s.Val → Res s.Val) :
    Good A l (.one (.modifyWith q s f)) (StatMap.modifyWith A m q s f) := by
  unfold StatMap.modifyWith
  rcases h.cases_key q s with ⟨pre, u, post, rfl, hg, -, -, hp⟩ | ⟨pre, post, rfl, ha, hg, -, h1, h2, hp⟩
  · rw [hg]
    simp only [Res.bind_ok]
    cases hf : f u with
    | error e => exact .inl ⟨u, by simp, hf⟩
    | ok v =>
      show Good A _ _ (.ok (Vec.update A m q s (.val s.ty v)))
      rw [(hp v).1]
      exact ⟨_, h.replaced v, .inl ⟨u, v, _, perm_swap, hf, perm_swap⟩⟩
  · rw [hg]
    simp only [Res.bind_ok]
    cases hf : f s.sv.default with
    | error e => exact .inr ⟨ha, .inl hf⟩
    | ok v =>
      simp only [Res.bind_ok, Buf.from_eq]
      by_cases hs : Storable (E.layout s.ty)
      · rw [if_pos hs]
        show Good A _ _ (.ok (Vec.put A m q s (.val s.ty v)).1)
        rw [hp v]
        exact ⟨_, h.added v h1 h2 hs, .inr ⟨v, hf, ha, hs, perm_swap⟩⟩
      · rw [if_neg hs]; exact .inr ⟨ha, .inr ⟨by rw [hf]; rfl, hs, rfl⟩⟩

theorem getMut (h : BRep A m l) (q : Qualifier Q) (s : StatInst E) (f : s.Val → Res s.Val) :
    Good A l (.one (.getMut q s f)) (StatMap.getMut A m q s f) := by
  unfold StatMap.getMut
  rcases h.cases_key q s with ⟨pre, u, post, rfl, hg, -, -, hp⟩ | ⟨pre, post, rfl, ha, hg, -, h1, h2, hp⟩
  · rw [hg]
    simp only [Res.bind_ok]
    cases hf : f u with
    | error e => exact ⟨u, by simp, hf⟩
    | ok v =>
      show Good A _ _ (.ok (Vec.update A m q s (.val s.ty v)))
      rw [(hp v).1]
      exact ⟨_, h.replaced v, .inl ⟨u, v, _, perm_swap, hf, perm_swap⟩⟩
  · rw [hg]; exact ⟨_, h, .inr ⟨ha, rfl⟩⟩

theorem remove (h : BRep A m l) (q : Qualifier Q) (s : StatInst E) :
    Good A l (.one (.remove q s)) (StatMap.remove A m q s >>= fun r => .ok r.1) := by
  unfold StatMap.remove
  rcases h.cases_key q s with ⟨pre, u, post, rfl, -, hp, hs, -⟩ | ⟨pre, post, rfl, ha, -, hp, -⟩
  · rw [hp]
    simp only [StatMap.readAs, Buf.read_val hs, Res.bind_ok]
    exact ⟨_, h.removed, .inl ⟨u, perm_swap⟩⟩
  · rw [hp]; exact ⟨_, h, .inr ⟨ha, rfl⟩⟩

theorem filter (h : BRep A m l) (p : Keyed E Q → Bool) :
    BRep A ((l.filter p).map Keyed.entry) (l.filter p) :=
  ⟨rfl, h.sorted.sublist (List.filter_sublist.map _), fun x hx => h.storable x (List.mem_filter.1 hx).1⟩

theorem removeAll (h : BRep A m l) (s : StatInst E) :
    Good A l (.one (.removeAll s)) (StatMap.removeAll A m s) := by
  unfold StatMap.removeAll
  rw [Vec.removeAll_le h.stat_le]
  simp only [Res.bind_ok]
  rw [Rep.dropAll fun e he => h.bufs e (List.mem_filter.1 he).1]
  refine ⟨l.filter (fun x => decide (x.1.stat ≠ s)), ?_, ?_⟩
  · have e := h.filter (fun x => decide (x.1.stat ≠ s))
    have : m.filter (fun e => decide (e.stat ≠ s)) =
        (l.filter (fun x => decide (x.1.stat ≠ s))).map Keyed.entry := by
      rw [h.eq, List.filter_map]; rfl
    rw [this]; exact e
  · show _ = Multiset.filter _ _
    rw [Multiset.filter_coe]

theorem clear (h : BRep A m l) : Good A l (.one .clear) (StatMap.clear m) := by
  unfold StatMap.clear
  rw [Rep.dropAll h.bufs]
  exact ⟨[], nil, rfl⟩

theorem iterMut (h : BRep A m l) (s : StatInst E) (f : s.Val → s.Val) :
    Good A l (.one (.iterMut s f)) (StatMap.iterMut A m s (fun v => .ok (f v))) := by
  unfold StatMap.iterMut
  rw [Vec.sliceMut_le h.stat_le]
  have key : ∀ l : List (Keyed E Q), (∀ x ∈ l, Storable (E.layout x.1.stat.ty)) →
      (l.map Keyed.entry).mapM (Vec.touch s (fun b => do
        let v ← b.read s.ty
        let v' ← (.ok (f v) : Res s.Val)
        .ok (.val s.ty v'))) = .ok ((l.map (Bag.touch s f)).map Keyed.entry) := by
    intro l
    induction l with
    | nil => intro _; rfl
    | cons x l ih =>
      intro hl
      rw [List.map_cons, List.mapM_cons, ih (fun y hy => hl y (by simp [hy]))]
      have hs := hl x (by simp)
      obtain ⟨⟨t, q⟩, v⟩ := x
      by_cases he : t = s
      · subst he
        simp only at hs
        simp only [Vec.touch, Keyed.entry, if_true, Buf.read_val hs, Res.bind_ok]
        simp [Bag.touch, Keyed.entry]
      · simp [Vec.touch, Keyed.entry, he, Bag.touch]
  have hkey : ∀ x : Keyed E Q, (Bag.touch s f x).1 = x.1 := by
    rintro ⟨⟨t, q⟩, v⟩
    simp only [Bag.touch]
    by_cases h : t = s
    · subst h; simp
    · simp [h]
  rw [h.eq, key l h.storable]
  refine ⟨l.map (Bag.touch s f), ⟨rfl, ?_, ?_⟩, ?_⟩
  · rw [List.map_map, show ((fun x : Keyed E Q => x.1) ∘ Bag.touch s f) = (·.1) from funext hkey]; exact h.sorted
  · intro x hx
    obtain ⟨y, hy, rfl⟩ := List.mem_map.1 hx
    rw [hkey]; exact h.storable y hy
  · show _ = Multiset.map _ _
    rw [Multiset.map_coe]

/-- items as a list of keyed values -/
def items (T : E.S) (its : List (Qualifier Q × Nat × E.El (E.valTy T))) : List (Keyed E Q) :=
  its.map fun t => (⟨⟨⟨T, t.2.1⟩, t.1⟩, t.2.2⟩ : Keyed E Q)

omit [DecidableEq Q] [Ord Q] [Std.TransOrd Q] [Std.LawfulEqOrd Q] in
theorem entries (T : E.S) (its : List (Qualifier Q × Nat × E.El (E.valTy T))) :
    StatMap.entries T its = if its = [] ∨ Storable (E.layout (E.valTy T)) then
      .ok ((items T its).map Keyed.entry) else .error .panic := by
  by_cases hs : Storable (E.layout (E.valTy T))
  · simp only [hs, or_true, if_true]
    induction its with
    | nil => rfl
    | cons t its ih =>
      obtain ⟨q, i, v⟩ := t
      unfold StatMap.entries
      rw [ih, Buf.from_eq, if_pos hs]
      rfl
  · cases its with
    | nil => rfl
    | cons t its =>
      obtain ⟨q, i, v⟩ := t
      unfold StatMap.entries
      rw [Buf.from_eq, if_neg hs]
      simp only [reduceCtorEq, hs, or_self, if_false]
      rfl

theorem sortedList (l : List (Keyed E Q)) (hs : ∀ x ∈ l, Storable (E.layout x.1.stat.ty)) :
    ∃ l' : List (Keyed E Q), l'.Perm l ∧ BRep A (Vec.sorted A (l.map Keyed.entry)) l' := by
  refine ⟨l.mergeSort (fun a b => Key.cmp A a.1 b.1 != .gt), List.mergeSort_perm _ _, ?_, ?_, ?_⟩
  · exact (List.map_mergeSort (f := Keyed.entry) (s := fun a b : Entry E Q (Buf E) => a.sort A b != .gt)
      (fun a _ b _ => rfl)).symm
  · rw [List.pairwise_map]
    refine (List.pairwise_mergeSort (le := fun a b : Keyed E Q => Key.cmp A a.1 b.1 != .gt) ?_ ?_ l).imp
      fun h => bne_iff_ne.1 h
    · intro a b c hab hbc
      simp only [bne_iff_ne] at *
      exact Ordering.isLE_iff_ne_gt.1 (Std.TransCmp.isLE_trans (cmp := Key.cmp A)
        (Ordering.isLE_iff_ne_gt.2 hab) (Ordering.isLE_iff_ne_gt.2 hbc))
    · intro a b
      have : Key.cmp A b.1 a.1 = (Key.cmp A a.1 b.1).swap := Std.OrientedCmp.eq_swap
      rw [this]
      cases Key.cmp A a.1 b.1 <;> rfl
  · intro x hx; exact hs x ((List.mergeSort_perm _ _).mem_iff.1 hx)

theorem extend (h : BRep A m l) (T : E.S) (its : List (Qualifier Q × Nat × E.El (E.valTy T))) :
    Good A l (.extend T its) (StatMap.extend A m T its) := by
  unfold StatMap.extend
  rw [entries]
  by_cases hc : its = [] ∨ Storable (E.layout (E.valTy T))
  · rw [if_pos hc]
    simp only [Res.bind_ok]
    obtain ⟨l', hp, hr⟩ := sortedList (A := A) (l ++ items T its) (by
      intro x hx
      rcases List.mem_append.1 hx with hx | hx
      · exact h.storable x hx
      · obtain ⟨t, ht, rfl⟩ := List.mem_map.1 hx
        rcases hc with rfl | hc
        · simp at ht
        · exact hc)
    rw [List.map_append, ← h.eq] at hr
    refine ⟨l', hr, hc, ?_⟩
    rw [Multiset.coe_eq_coe.2 hp, ← Multiset.coe_add]; rfl
  · rw [if_neg hc]
    push Not at hc
    exact ⟨hc.1, hc.2, rfl⟩

theorem collect (l : List (Keyed E Q)) (T : E.S) (its : List (Qualifier Q × Nat × E.El (E.valTy T))) :
    Good A l (.collect T its) (StatMap.fromIter A T its) := by
  have := extend (A := A) nil T its
  have e : StatMap.extend A [] T its = StatMap.fromIter A T its := rfl
  rw [e] at this
  cases hr : StatMap.fromIter A T its with
  | error e => rw [hr] at this; exact this
  | ok m' =>
    rw [hr] at this
    obtain ⟨l', h1, h2, h3⟩ := this
    exact ⟨l', h1, h2, by rw [h3]; simp⟩

theorem step (h : BRep A m l) (o : MultiOp E Q) : Good A l o (StatMap.multiStep A m o) := by
  cases o with
  | extend T its => exact h.extend T its
  | collect T its => exact collect l T its
  | one o =>
    cases o with
    | insert q s v => exact h.insert q s v
    | insertBase q s b => exact h.insert q s (s.sv.fromBase b)
    | modify q s o => exact h.modifyWith q s o.writeTo
    | modifyWith q s f => exact h.modifyWith q s f
    | getMut q s f => exact h.getMut q s f
    | iterMut s f => exact h.iterMut s f
    | remove q s => exact h.remove q s
    | removeAll s => exact h.removeAll s
    | clear => exact h.clear

end BRep
end BSQ
