import Verif.Spec.WildOrd
import Verif.Proofs.Multimap
/-! Helper lemmas: vectors in which only the stats are in order. -/
namespace BSQ

/-- binary search when only part of what `g` says can be relied on: `lo` and `hi` are sound for its answers, `lo`
holds further down and `hi` further up -/
theorem bsLoop_loose (g : Nat → Ordering) (hi : Nat → Prop) (n : Nat) (h1 : ∀ i, i < n → g i = .gt → hi i)
    (up : ∀ i j, i ≤ j → j < n → hi i → hi j) (fuel base size : Nat) (hs : 1 ≤ size) (hf : size ≤ fuel + 1)
    (hn : base + size ≤ n) :
    ∀ j, bsLoop g fuel base size < j → j < base + size → hi j := by
  induction fuel generalizing base size with
  | zero =>
    intro j h2 h3
    have h2 : base < j := h2
    omega
  | succ k ih =>
    rw [bsLoop]
    split
    · rename_i hsz
      simp only
      by_cases hg : g (base + size / 2) = .gt
      · rw [if_pos hg]
        intro j hj hj2
        by_cases hjm : j < base + (size - size / 2)
        · exact ih base (size - size / 2) (by omega) (by omega) (by omega) j hj hjm
        · exact up (base + size / 2) j (by omega) (by omega) (h1 _ (by omega) hg)
      · rw [if_neg hg]
        intro j hj hj2
        exact ih (base + size / 2) (size - size / 2) (by omega) (by omega) (by omega) j hj (by omega)
    · intro j h2 h3
      omega

theorem binarySearchBy_loose {α : Type} {l : List α} {f : α → Ordering} (lo hi : α → Prop)
    (h1 : ∀ x ∈ l, f x = .gt → hi x) (h2 : ∀ x ∈ l, f x ≠ .gt → lo x)
    (hp : l.Pairwise (fun a b => (hi a → hi b) ∧ (lo b → lo a))) :
    match binarySearchBy l f with
    | .ok i => ∃ hi : i < l.length, f l[i] = .eq
    | .error i => i ≤ l.length ∧ (∀ j (hj : j < l.length), j < i → lo l[j]) ∧
        (∀ j (hj : j < l.length), i ≤ j → hi l[j]) := by
  have hg : ∀ {i j} (hij : i ≤ j) (hj : j < l.length), (hi (l[i]'(by omega)) → hi l[j]) ∧
      (lo l[j] → lo (l[i]'(by omega))) := by
    intro i j hij hj
    rcases Nat.lt_or_eq_of_le hij with hlt | rfl
    · exact List.pairwise_iff_getElem.1 hp i j (by omega) hj hlt
    · exact ⟨id, id⟩
  unfold binarySearchBy
  by_cases h0 : l.length = 0
  · simp [h0]
  simp only [h0, if_false]
  set g : Nat → Ordering := fun i => (l[i]?).elim .gt f with hgd
  have gval : ∀ i (hi : i < l.length), g i = f l[i] := fun i hi => by simp [hgd, hi]
  have h4 := bsLoop_loose g (fun i => ∀ h : i < l.length, hi l[i]) l.length
    (fun i hi hgt _ => h1 _ (List.getElem_mem _) (by rw [← gval i hi]; exact hgt))
    (fun i j hij hj h _ => (hg hij hj).1 (h (by omega))) l.length 0 l.length (by omega) (by omega) (by omega)
  have h2' := bsLoop_lt g l.length 0 l.length (by omega)
  have h3 := (bsLoop_ge g l.length 0 l.length).2
  set b := bsLoop g l.length 0 l.length with hb
  have hbl : b < l.length := by omega
  have gb := gval b hbl
  show match (match g b with
    | .eq => Except.ok b
    | .lt => Except.error (b + 1)
    | .gt => Except.error b : Except Nat Nat) with
    | .ok i => ∃ hi : i < l.length, f l[i] = .eq
    | .error i => i ≤ l.length ∧ (∀ j (hj : j < l.length), j < i → lo l[j]) ∧
        (∀ j (hj : j < l.length), i ≤ j → hi l[j])
  cases hc : g b with
  | eq => exact ⟨hbl, gb.symm.trans hc⟩
  | lt =>
    refine ⟨by omega, fun j hj hjb => ?_, fun j hj hjb => h4 j (by omega) (by omega) hj⟩
    exact (hg (Nat.lt_succ_iff.1 hjb) hbl).2 (h2 _ (List.getElem_mem _) (by rw [← gb, hc]; simp))
  | gt =>
    rcases h3 with h3 | h3
    · refine ⟨by omega, fun j hj hjb => by omega, fun j hj hjb => ?_⟩
      exact (hg hjb hj).1 (h1 _ (List.getElem_mem _) (gb.symm.trans hc))
    · exact absurd hc h3

variable {E : Env} {Q : Type} {A : Addr E}

/-- the vector holds exactly the list `l`, and its stats are in order -/
structure GRep (A : Addr E) (m : StatMap E Q) (l : List (Keyed E Q)) : Prop where
  eq : m = l.map Keyed.entry
  grouped : l.Pairwise (fun a b => a.1.stat.cmp A b.1.stat ≠ .gt)
  storable : ∀ x ∈ l, Storable (E.layout x.1.stat.ty)

namespace GRep
variable {m : StatMap E Q} {l : List (Keyed E Q)}

theorem nil : GRep A ([] : StatMap E Q) [] := ⟨rfl, by simp, by simp⟩

theorem le_trans {a b c : StatInst E} (h : a.cmp A b ≠ .gt) (h' : b.cmp A c ≠ .gt) : a.cmp A c ≠ .gt :=
  Ordering.isLE_iff_ne_gt.1 (Std.TransCmp.isLE_trans (cmp := StatInst.cmp A)
    (Ordering.isLE_iff_ne_gt.2 h) (Ordering.isLE_iff_ne_gt.2 h'))

theorem ge_of {a b : StatInst E} (h : a.cmp A b ≠ .lt) : b.cmp A a ≠ .gt := by
  have : b.cmp A a = (a.cmp A b).swap := Std.OrientedCmp.eq_swap
  rw [this]
  cases hc : a.cmp A b <;> simp_all

theorem search (h : GRep A m l) (_ : Ord Q) (q : Qualifier Q) (s : StatInst E) :
    (∃ pre q' v post, l = pre ++ (⟨⟨s, q'⟩, v⟩ : Keyed E Q) :: post ∧ Vec.search A m q s = .ok pre.length) ∨
    (∃ pre post, l = pre ++ post ∧ Vec.search A m q s = .error pre.length ∧
      (∀ x ∈ pre, x.1.stat.cmp A s ≠ .gt) ∧ ∀ x ∈ post, s.cmp A x.1.stat ≠ .gt) := by
  obtain ⟨rfl, hs, -⟩ := h
  have key := binarySearchBy_loose (l := l.map Keyed.entry) (f := fun e => e.keyCmp A s q)
    (fun e => e.stat.cmp A s ≠ .gt) (fun e => s.cmp A e.stat ≠ .gt)
    (by
      intro e _ hgt
      refine ge_of ?_
      intro hlt
      simp only [Entry.keyCmp, hlt] at hgt
      cases hgt)
    (by
      intro e _ hgt hst
      simp only [Entry.keyCmp, hst] at hgt
      exact hgt rfl)
    (by
      rw [List.pairwise_map]
      refine hs.imp ?_
      intro a b hab
      exact ⟨fun h => le_trans h hab, fun h => le_trans hab h⟩)
  unfold Vec.search
  split at key
  · rename_i i hi
    obtain ⟨hil, he⟩ := key
    left
    simp only [List.length_map] at hil
    simp only [List.getElem_map, Entry.keyCmp, Ordering.then_eq_eq] at he
    have hke : (l[i]).1.stat = s := Std.LawfulEqCmp.eq_of_compare (cmp := StatInst.cmp A) he.1
    generalize hx : l[i] = x at hke
    obtain ⟨⟨t, q'⟩, v⟩ := x
    simp only at hke
    subst hke
    refine ⟨l.take i, q', v, l.drop (i + 1), ?_, ?_⟩
    · rw [← hx]; simp
    · rw [hi]; simp; omega
  · rename_i i hi
    obtain ⟨hil, h2, h3⟩ := key
    right
    simp only [List.length_map] at hil h2 h3
    refine ⟨l.take i, l.drop i, by simp, by rw [hi]; simp; omega, ?_, ?_⟩
    · intro x hx
      obtain ⟨j, hj, rfl⟩ := List.mem_iff_getElem.1 hx
      simp only [List.length_take] at hj
      rw [List.getElem_take]
      have := h2 j (by omega) (by omega)
      rwa [List.getElem_map] at this
    · intro x hx
      obtain ⟨j, hj, rfl⟩ := List.mem_iff_getElem.1 hx
      simp only [List.length_drop] at hj
      rw [List.getElem_drop]
      have := h3 (i + j) (by omega) (by omega)
      rwa [List.getElem_map] at this

/-- the value a search finds, if any -/
theorem cases_key (h : GRep A m l) (i : Ord Q) (q : Qualifier Q) (s : StatInst E) :
    (∃ pre q' v post, l = pre ++ (⟨⟨s, q'⟩, v⟩ : Keyed E Q) :: post ∧ StatMap.get A m q s = .ok (some v) ∧
      Vec.pull A m q s = ((pre ++ post).map Keyed.entry, some (.val s.ty v)) ∧ Storable (E.layout s.ty) ∧
      ∀ v', Vec.update A m q s (.val s.ty v') = (pre ++ (⟨⟨s, q'⟩, v'⟩ : Keyed E Q) :: post).map Keyed.entry ∧
        (Vec.put A m q s (.val s.ty v')).1 = (pre ++ (⟨⟨s, q'⟩, v'⟩ : Keyed E Q) :: post).map Keyed.entry) ∨
    (∃ pre post, l = pre ++ post ∧ StatMap.get A m q s = .ok none ∧
      Vec.pull A m q s = (m, none) ∧
      (∀ x ∈ pre, x.1.stat.cmp A s ≠ .gt) ∧ (∀ x ∈ post, s.cmp A x.1.stat ≠ .gt) ∧
      ∀ v', (Vec.put A m q s (.val s.ty v')).1 = (pre ++ (⟨⟨s, q⟩, v'⟩ : Keyed E Q) :: post).map Keyed.entry) := by
  rcases h.search i q s with ⟨pre, q', v, post, e, hs⟩ | ⟨pre, post, e, hs, h1, h2⟩
  · left
    have hst : Storable (E.layout s.ty) := h.storable ⟨⟨s, q'⟩, v⟩ (by rw [e]; simp)
    have hm : m = pre.map Keyed.entry ++ ⟨s, q', .val s.ty v⟩ :: post.map Keyed.entry := by
      rw [h.eq, e]; simp [Keyed.entry]
    rw [← List.length_map (f := Keyed.entry)] at hs
    refine ⟨pre, q', v, post, e, ?_, ?_, hst, fun v' => ⟨?_, ?_⟩⟩
    · unfold StatMap.get Vec.find
      rw [hs, hm]
      simp only [List.getElem?_append_right (Nat.le_refl _), Nat.sub_self, List.getElem?_cons_zero, Option.map_some,
        StatMap.readAs, Buf.read_val hst, Res.bind_ok]
    · unfold Vec.pull
      rw [hs, hm]
      simp only [eraseIdx_mid]; simp
    · unfold Vec.update
      rw [hs, hm]
      simp only [modify_mid]; simp [Keyed.entry]
    · unfold Vec.put
      rw [hs, hm]
      simp only [modify_mid]; simp [Keyed.entry]
  · right
    have hm : m = pre.map Keyed.entry ++ post.map Keyed.entry := by rw [h.eq, e]; simp
    rw [← List.length_map (f := Keyed.entry)] at hs
    refine ⟨pre, post, e, ?_, ?_, h1, h2, fun v' => ?_⟩
    · unfold StatMap.get Vec.find
      rw [hs]; rfl
    · unfold Vec.pull
      rw [hs]
    · unfold Vec.put
      rw [hs, hm]
      simp only [insertIdx_mid]; simp [Keyed.entry]

theorem replaced {pre post : List (Keyed E Q)} {k : Key E Q} {v : k.Val} (v' : k.Val)
    (h : GRep A m (pre ++ (⟨k, v⟩ : Keyed E Q) :: post)) :
    GRep A ((pre ++ (⟨k, v'⟩ : Keyed E Q) :: post).map Keyed.entry) (pre ++ (⟨k, v'⟩ : Keyed E Q) :: post) := by
  refine ⟨rfl, ?_, ?_⟩
  · have := h.grouped
    simpa [List.pairwise_append] using this
  · intro x hx
    have hst := h.storable
    simp only [List.mem_append, List.mem_cons] at hx hst
    rcases hx with hx | rfl | hx
    · exact hst x (.inl hx)
    · exact hst ⟨k, v⟩ (.inr (.inl rfl))
    · exact hst x (.inr (.inr hx))

theorem added {pre post : List (Keyed E Q)} {k : Key E Q} (v : k.Val) (h : GRep A m (pre ++ post))
    (h1 : ∀ x ∈ pre, x.1.stat.cmp A k.stat ≠ .gt) (h2 : ∀ x ∈ post, k.stat.cmp A x.1.stat ≠ .gt)
    (hs : Storable (E.layout k.stat.ty)) :
    GRep A ((pre ++ (⟨k, v⟩ : Keyed E Q) :: post).map Keyed.entry) (pre ++ (⟨k, v⟩ : Keyed E Q) :: post) := by
  refine ⟨rfl, ?_, ?_⟩
  · have := h.grouped
    simp only [List.pairwise_append, List.pairwise_cons, List.mem_cons] at this ⊢
    obtain ⟨p1, p2, p3⟩ := this
    refine ⟨p1, ⟨h2, p2⟩, ?_⟩
    rintro a ha b (rfl | hb)
    · exact h1 a ha
    · exact p3 a ha b hb
  · intro x hx
    have hst := h.storable
    simp only [List.mem_append, List.mem_cons] at hx hst
    rcases hx with hx | rfl | hx
    · exact hst x (.inl hx)
    · exact hs
    · exact hst x (.inr hx)

theorem removed {pre post : List (Keyed E Q)} {x : Keyed E Q} (h : GRep A m (pre ++ x :: post)) :
    GRep A ((pre ++ post).map Keyed.entry) (pre ++ post) := by
  have hsub : (pre ++ post).Sublist (pre ++ x :: post) := by simp
  exact ⟨rfl, h.grouped.sublist hsub, fun y hy => h.storable y (hsub.mem hy)⟩

theorem stat_le (h : GRep A m l) : m.Pairwise (fun a b => a.stat.cmp A b.stat ≠ .gt) := by
  obtain ⟨rfl, hs, -⟩ := h
  rw [List.pairwise_map]
  exact hs

theorem bufs (h : GRep A m l) : ∀ e ∈ m, ∃ x, e.buf = .val e.stat.ty x ∧ Storable (E.layout e.stat.ty) := by
  obtain ⟨rfl, -, hs⟩ := h
  intro e he
  obtain ⟨x, hx, rfl⟩ := List.mem_map.1 he
  exact ⟨x.2, rfl, hs x hx⟩

theorem perm_swap {pre post : List (Keyed E Q)} {x : Keyed E Q} :
    ((pre ++ x :: post : List (Keyed E Q)) : Bag E Q) = x ::ₘ ((pre ++ post : List (Keyed E Q)) : Bag E Q) := by
  rw [Multiset.cons_coe, Multiset.coe_eq_coe]; exact List.perm_middle

/-- a call that returns: what has become of the contents -/
def Good (A : Addr E) (l : List (Keyed E Q)) (o : MapOp E Q) : Res (StatMap E Q) → Prop
  | .ok m' => ∃ l', GRep A m' l' ∧ Bag.LooseStep (↑l) (↑l') o
  | .error e => Bag.LooseFails (↑l : Bag E Q) e o

theorem insert (h : GRep A m l) (i : Ord Q) (q : Qualifier Q) (s : StatInst E) (v : s.Val) :
    Good A l (.insert q s v) (StatMap.insert A m q s v) := by
  unfold StatMap.insert
  rw [Buf.from_eq]
  by_cases hs : Storable (E.layout s.ty)
  · rw [if_pos hs]
    simp only [Res.bind_ok]
    rcases h.cases_key i q s with ⟨pre, q', u, post, rfl, -, -, -, hp⟩ | ⟨pre, post, rfl, -, -, h1, h2, hp⟩
    · rw [(hp v).2]
      exact ⟨_, h.replaced v, hs, .inl ⟨q', u, v, _, perm_swap, rfl, perm_swap⟩⟩
    · rw [hp v]
      exact ⟨_, h.added (k := ⟨s, q⟩) v h1 h2 hs, hs, .inr ⟨hs, perm_swap⟩⟩
  · rw [if_neg hs]; exact ⟨hs, rfl⟩

/-- the shared shape of `modify` and `modify_with` -/
theorem modifyWith (h : GRep A m l) (i : Ord Q) (q : Qualifier Q) (s : StatInst E) (f : s.Val → Res s.Val) :
    Good A l (.modifyWith q s f) (StatMap.modifyWith A m q s f) := by
  unfold StatMap.modifyWith
  rcases h.cases_key i q s with ⟨pre, q', u, post, rfl, hg, -, -, hp⟩ | ⟨pre, post, rfl, hg, -, h1, h2, hp⟩
  · rw [hg]
    simp only [Res.bind_ok]
    cases hf : f u with
    | error e => exact .inl ⟨q', u, by simp, hf⟩
    | ok v =>
      show Good A _ _ (.ok (Vec.update A m q s (.val s.ty v)))
      rw [(hp v).1]
      exact ⟨_, h.replaced v, .inl ⟨q', u, v, _, perm_swap, hf, perm_swap⟩⟩
  · rw [hg]
    simp only [Res.bind_ok]
    cases hf : f s.sv.default with
    | error e => exact .inr (.inl hf)
    | ok v =>
      simp only [Res.bind_ok, Buf.from_eq]
      by_cases hs : Storable (E.layout s.ty)
      · rw [if_pos hs]
        show Good A _ _ (.ok (Vec.put A m q s (.val s.ty v)).1)
        rw [hp v]
        exact ⟨_, h.added (k := ⟨s, q⟩) v h1 h2 hs, .inr ⟨v, hf, hs, perm_swap⟩⟩
      · rw [if_neg hs]; exact .inr (.inr ⟨by rw [hf]; rfl, hs, rfl⟩)

theorem getMut (h : GRep A m l) (i : Ord Q) (q : Qualifier Q) (s : StatInst E) (f : s.Val → Res s.Val) :
    Good A l (.getMut q s f) (StatMap.getMut A m q s f) := by
  unfold StatMap.getMut
  rcases h.cases_key i q s with ⟨pre, q', u, post, rfl, hg, -, -, hp⟩ | ⟨pre, post, rfl, hg, -, h1, h2, hp⟩
  · rw [hg]
    simp only [Res.bind_ok]
    cases hf : f u with
    | error e => exact ⟨q', u, by simp, hf⟩
    | ok v =>
      show Good A _ _ (.ok (Vec.update A m q s (.val s.ty v)))
      rw [(hp v).1]
      exact ⟨_, h.replaced v, .inl ⟨q', u, v, _, perm_swap, hf, perm_swap⟩⟩
  · rw [hg]; exact ⟨_, h, .inr rfl⟩

theorem remove (h : GRep A m l) (i : Ord Q) (q : Qualifier Q) (s : StatInst E) :
    Good A l (.remove q s) (StatMap.remove A m q s >>= fun r => .ok r.1) := by
  unfold StatMap.remove
  rcases h.cases_key i q s with ⟨pre, q', u, post, rfl, -, hp, hs, -⟩ | ⟨pre, post, rfl, -, hp, -⟩
  · rw [hp]
    simp only [StatMap.readAs, Buf.read_val hs, Res.bind_ok]
    exact ⟨_, h.removed, .inl ⟨q', u, perm_swap⟩⟩
  · rw [hp]; exact ⟨_, h, .inr rfl⟩

theorem filter (h : GRep A m l) (p : Keyed E Q → Bool) :
    GRep A ((l.filter p).map Keyed.entry) (l.filter p) :=
  ⟨rfl, h.grouped.sublist List.filter_sublist, fun x hx => h.storable x (List.mem_filter.1 hx).1⟩

theorem removeAll (h : GRep A m l) (_ : Ord Q) (s : StatInst E) :
    Good A l (.removeAll s) (StatMap.removeAll A m s) := by
  unfold StatMap.removeAll
  rw [Vec.removeAll_le h.stat_le]
  simp only [Res.bind_ok]
  rw [Rep.dropAll fun e he => h.bufs e (List.mem_filter.1 he).1]
  refine ⟨l.filter (fun x => decide (x.1.stat ≠ s)), ?_, ?_⟩
  · have e := h.filter (fun x => decide (x.1.stat ≠ s))
    have : m.filter (fun e => decide (e.stat ≠ s)) =
        (l.filter (fun x => decide (x.1.stat ≠ s))).map Keyed.entry := by
      rw [h.eq, List.filter_map]; rfl
    rw [this]; exact e
  · show _ = Multiset.filter _ _
    rw [Multiset.filter_coe]

theorem clear (h : GRep A m l) : Good A l .clear (StatMap.clear m) := by
  unfold StatMap.clear
  rw [Rep.dropAll h.bufs]
  exact ⟨[], nil, rfl⟩

theorem iterMut (h : GRep A m l) (_ : Ord Q) (s : StatInst E) (f : s.Val → s.Val) :
    Good A l (.iterMut s f) (StatMap.iterMut A m s (fun v => .ok (f v))) := by
  unfold StatMap.iterMut
  rw [Vec.sliceMut_le h.stat_le]
  have key : ∀ l : List (Keyed E Q), (∀ x ∈ l, Storable (E.layout x.1.stat.ty)) →
      (l.map Keyed.entry).mapM (Vec.touch s (fun b => do
        let v ← b.read s.ty
        let v' ← (.ok (f v) : Res s.Val)
        .ok (.val s.ty v'))) = .ok ((l.map (Bag.touch s f)).map Keyed.entry) := by
    intro l
    induction l with
    | nil => intro _; rfl
    | cons x l ih =>
      intro hl
      rw [List.map_cons, List.mapM_cons, ih (fun y hy => hl y (by simp [hy]))]
      have hs := hl x (by simp)
      obtain ⟨⟨t, q⟩, v⟩ := x
      by_cases he : t = s
      · subst he
        simp only at hs
        simp only [Vec.touch, Keyed.entry, if_true, Buf.read_val hs, Res.bind_ok]
        simp [Bag.touch, Keyed.entry]
      · simp [Vec.touch, Keyed.entry, he, Bag.touch]
  have hkey : ∀ x : Keyed E Q, (Bag.touch s f x).1 = x.1 := by
    rintro ⟨⟨t, q⟩, v⟩
    simp only [Bag.touch]
    by_cases h : t = s
    · subst h; simp
    · simp [h]
  rw [h.eq, key l h.storable]
  refine ⟨l.map (Bag.touch s f), ⟨rfl, ?_, ?_⟩, ?_⟩
  · rw [List.pairwise_map]
    simp only [hkey]; exact h.grouped
  · intro x hx
    obtain ⟨y, hy, rfl⟩ := List.mem_map.1 hx
    rw [hkey]; exact h.storable y hy
  · show _ = Multiset.map _ _
    rw [Multiset.map_coe]

theorem step (h : GRep A m l) (i : Ord Q) (o : MapOp E Q) : Good A l o (StatMap.step A m o) := by
  cases o with
  | insert q s v => exact h.insert i q s v
  | insertBase q s b => exact h.insert i q s (s.sv.fromBase b)
  | modify q s o => exact h.modifyWith i q s o.writeTo
  | modifyWith q s f => exact h.modifyWith i q s f
  | getMut q s f => exact h.getMut i q s f
  | iterMut s f => exact h.iterMut i s f
  | remove q s => exact h.remove i q s
  | removeAll s => exact h.removeAll i s
  | clear => exact h.clear

/-- the entries of one stat -/
theorem statList (h : GRep A m l) (s : StatInst E) : ∃ L : List (Qualifier Q × s.Val),
    m.filter (fun e => decide (e.stat = s)) = L.map (fun p => ⟨s, p.1, .val s.ty p.2⟩) ∧
    L.map (fun p => (⟨⟨s, p.1⟩, p.2⟩ : Keyed E Q)) = l.filter (fun x => decide (x.1.stat = s)) ∧
    (L ≠ [] → Storable (E.layout s.ty)) := by
  have hex : ∀ l : List (Keyed E Q), (∀ x ∈ l, x.1.stat = s) →
      ∃ L : List (Qualifier Q × s.Val), L.map (fun p => (⟨⟨s, p.1⟩, p.2⟩ : Keyed E Q)) = l := by
    intro l
    induction l with
    | nil => intro _; exact ⟨[], rfl⟩
    | cons x l ih =>
      intro hl
      obtain ⟨L, hL⟩ := ih (fun y hy => hl y (by simp [hy]))
      have he := hl x (by simp)
      obtain ⟨⟨t, q⟩, v⟩ := x
      simp only at he
      subst he
      exact ⟨(q, v) :: L, by rw [List.map_cons, hL]⟩
  obtain ⟨L, hL⟩ := hex (l.filter (fun x => decide (x.1.stat = s))) (by simp)
  refine ⟨L, ?_, hL, ?_⟩
  · rw [h.eq, List.filter_map]
    have : (l.filter ((fun e : Entry E Q (Buf E) => decide (e.stat = s)) ∘ Keyed.entry)) =
        L.map (fun p => (⟨⟨s, p.1⟩, p.2⟩ : Keyed E Q)) := by rw [hL]; rfl
    rw [this, List.map_map]; rfl
  · intro hne
    obtain ⟨p, hp⟩ := List.exists_mem_of_ne_nil _ hne
    have : (⟨⟨s, p.1⟩, p.2⟩ : Keyed E Q) ∈ l.filter (fun x => decide (x.1.stat = s)) := by
      rw [← hL]; exact List.mem_map.2 ⟨p, hp, rfl⟩
    exact h.storable _ (List.mem_filter.1 this).1

theorem iter (h : GRep A m l) (_ : Ord Q) (s : StatInst E) {L : List (Qualifier Q × s.Val)}
    (hL : m.filter (fun e => decide (e.stat = s)) = L.map (fun p => ⟨s, p.1, .val s.ty p.2⟩))
    (hst : L ≠ [] → Storable (E.layout s.ty)) : StatMap.iter A m s = .ok L := by
  unfold StatMap.iter
  rw [Vec.slice_le h.stat_le, hL]
  simp only [Res.bind_ok]
  clear hL
  induction L with
  | nil => rfl
  | cons p L ih =>
    rw [List.map_cons, List.mapM_cons, ih fun _ => hst (by simp)]
    simp only [Buf.read_val (hst (by simp)), Res.bind_ok]
    rfl

theorem seen (h : GRep A m l) : Bag.LooseSeen A m (↑l) where
  len := by rw [Multiset.coe_card, h.eq]; simp [StatMap.len]
  isEmpty := by rw [h.eq]; simp [StatMap.isEmpty]
  get i q s := by
    rcases h.cases_key i q s with ⟨pre, q', v, post, e, hg, -⟩ | ⟨_, _, _, hg, -⟩
    · exact ⟨_, hg, fun w hw => by cases hw; exact ⟨q', by rw [e]; simp⟩⟩
    · exact ⟨_, hg, fun w hw => by cases hw⟩
  iter i s := by
    obtain ⟨L, h1, h2, h4⟩ := h.statList s
    exact ⟨L, h.iter i s h1 h4, by rw [h2, Multiset.filter_coe]⟩

end GRep
end BSQ
