import Verif.Model.Compares
import Verif.Props.AnyOrder
import Verif.Props.Serde
import Mathlib.Data.Nat.Log
/-!
# C122: what lookups in a map cost, and what the comparisons they make show
-/
namespace BSQ
set_option linter.unusedSectionVars false

theorem bsLoopAsk_run {α : Type} (k : Nat → Ask α) (f : Nat → Ordering) (fuel base size : Nat) :
    (bsLoopAsk k fuel base size).run f = (k (bsLoop f fuel base size)).run f := by
  induction fuel generalizing base size with
  | zero => rfl
  | succ n ih =>
    rw [bsLoopAsk, bsLoop]
    split
    · exact ih _ _
    · rfl

theorem bsLoopAsk_asked {α : Type} (k : Nat → Ask α) (f : Nat → Ordering) (fuel base size : Nat) (hf : size ≤ fuel + 1) :
    ∃ l, (bsLoopAsk k fuel base size).asked f = l ++ (k (bsLoop f fuel base size)).asked f ∧
      l.length = Nat.clog 2 size ∧ ∀ i ∈ l, i < base + size := by
  induction fuel generalizing base size with
  | zero => exact ⟨[], rfl, by rw [Nat.clog_of_right_le_one (by omega)]; rfl, by simp⟩
  | succ n ih =>
    rw [bsLoopAsk, bsLoop]
    by_cases h1 : 1 < size
    · rw [if_pos h1, if_pos h1]
      obtain ⟨l, e1, e2, e3⟩ := ih (if f (base + size / 2) = .gt then base else base + size / 2) (size - size / 2)
        (by omega)
      refine ⟨(base + size / 2) :: l, congrArg (List.cons _) e1, ?_, ?_⟩
      · rw [List.length_cons, e2, Nat.clog_of_two_le (n := size) (by norm_num) (by omega)]
        congr 2; omega
      · intro i hi
        rcases List.mem_cons.1 hi with rfl | hi
        · omega
        · have := e3 i hi
          split at this <;> omega
    · rw [if_neg h1, if_neg h1]
      exact ⟨[], rfl, by rw [Nat.clog_of_right_le_one (by omega)]; rfl, by simp⟩

/-- number of comparisons of a search among `n` -/
def compares (n : Nat) : Nat := if n = 0 then 0 else Nat.clog 2 n + 1

/-- C122: a search among `n` elements asks exactly `⌈log2 n⌉ + 1` times (not at all if there are none), whatever the
answers, and only for elements that exist -/
theorem C122_count (n : Nat) (f : Nat → Ordering) :
    ((searchAsk n).asked f).length = compares n ∧ ∀ i ∈ (searchAsk n).asked f, i < n := by
  unfold searchAsk compares
  split
  · simp [Ask.asked]
  · rename_i h0
    obtain ⟨l, e1, e2, e3⟩ := bsLoopAsk_asked lastAsk f n 0 n (by omega)
    have hb := bsLoop_lt f n 0 n (by omega)
    have last : ∀ b, (lastAsk b).asked f = [b] := by
      intro b
      simp only [lastAsk, Ask.asked]
      cases f b <;> rfl
    rw [e1, last]
    refine ⟨by simp [e2], fun i hi => ?_⟩
    rcases List.mem_append.1 hi with hi | hi
    · have := e3 i hi; omega
    · have : i = _ := List.mem_singleton.1 hi
      omega

/-- C122: twice as many entries take one more comparison -/
theorem C122_doubling (n : Nat) (h : 0 < n) : compares (2 * n) = compares n + 1 := by
  unfold compares
  rw [if_neg (by omega), if_neg (by omega), Nat.clog_of_two_le (n := 2 * n) (by norm_num) (by omega)]
  congr 3; omega

variable {α : Type} (l : List α)

theorem searchAsk_run (f : α → Ordering) :
    (searchAsk l.length).run (fun i => (l[i]?).elim .gt f) = binarySearchBy l f := by
  unfold searchAsk binarySearchBy
  by_cases h0 : l.length = 0
  · simp only [h0, if_true]; rfl
  · simp only [h0, if_false]
    rw [bsLoopAsk_run]
    simp only [lastAsk, Ask.run]
    split <;> rename_i e <;> rw [e] <;> rfl

variable {E : Env} {Q B : Type} [Ord Q] (A : Addr E)

/-- C122: the searches of all methods that take a key, and both searches of those that look for all entries of a stat,
make these comparisons: the place of a key in a map of `n` entries is found by exactly `⌈log2 n⌉ + 1` comparisons of
keys, the entries of a stat by twice as many comparisons of stats; for no map and no key by more or fewer. -/
theorem C122_lookups (m : Vec E Q B) (q : Qualifier Q) (s : StatInst E) :
    (m.search A q s = (searchAsk m.length).run (m.answer A q s) ∧
      ((searchAsk m.length).asked (m.answer A q s)).length = compares m.length) ∧
    (m.range A s).1 = (match (searchAsk m.length).run (m.lower A s) with | .ok i => i | .error i => i) ∧
    (m.range A s).2 = (match (searchAsk m.length).run (m.upper A s) with | .ok i => i | .error i => i) ∧
    ((searchAsk m.length).asked (m.lower A s)).length + ((searchAsk m.length).asked (m.upper A s)).length =
      2 * compares m.length := by
  refine ⟨⟨(searchAsk_run m _).symm, (C122_count _ _).1⟩, ?_, ?_, ?_⟩
  · have := searchAsk_run m (fun x => if x.stat.cmp A s == .lt then .lt else .gt)
    unfold Vec.range partitionPoint
    simp only
    rw [← this]
    rfl
  · have := searchAsk_run m (fun x => if x.stat.cmp A s != .gt then .lt else .gt)
    unfold Vec.range partitionPoint
    simp only
    rw [← this]
    rfl
  · rw [(C122_count _ _).1, (C122_count _ _).1]; omega

/-- the end of the part searched has been seen to be greater, or the element before it -/
theorem bsLoop_edge (f : Nat → Ordering) (n fuel base size : Nat) (hs : 1 ≤ size) (hf : size ≤ fuel + 1)
    (h : base + size = n ∨ f (base + size) = .gt ∨ f (base + size - 1) = .gt) :
    bsLoop f fuel base size + 1 = n ∨ f (bsLoop f fuel base size + 1) = .gt ∨ f (bsLoop f fuel base size) = .gt := by
  induction fuel generalizing base size with
  | zero =>
    have : size = 1 := by omega
    subst this
    simpa [bsLoop] using h
  | succ k ih =>
    rw [bsLoop]
    by_cases h1 : 1 < size
    · rw [if_pos h1]
      refine ih _ _ (by omega) (by omega) ?_
      by_cases hm : f (base + size / 2) = .gt
      · rw [if_pos hm]
        rcases Nat.mod_two_eq_zero_or_one size with he | he
        · exact .inr (.inl (by rw [show base + (size - size / 2) = base + size / 2 by omega]; exact hm))
        · exact .inr (.inr (by rw [show base + (size - size / 2) - 1 = base + size / 2 by omega]; exact hm))
      · rw [if_neg hm, show base + size / 2 + (size - size / 2) = base + size by omega]
        exact h
    · have : size = 1 := by omega
      subst this
      simpa using h

/-- what `partition_point` returns has been compared on both sides, the list being in any order -/
theorem partitionPoint_edges (p : α → Bool) :
    (∀ i (hi : i < l.length), i + 1 = partitionPoint l p → p l[i] = true) ∧
    ∀ hi : partitionPoint l p < l.length, p l[partitionPoint l p] = false := by
  by_cases h0 : l.length = 0
  · exact ⟨fun i hi => by omega, fun hi => by omega⟩
  obtain ⟨h1, h2⟩ := partitionPoint_eq h0 p
  set g : Nat → Ordering := fun i => (l[i]?).elim Ordering.gt (fun x => if p x then .lt else .gt) with hg
  have gval : ∀ i (hi : i < l.length), g i = .gt ↔ p l[i] = false := fun i hi => by
    cases h : p l[i] <;> simp [hg, hi, h]
  obtain ⟨-, h3⟩ := bsLoop_any g l.length 0 l.length
  have h4 := bsLoop_edge g l.length l.length 0 l.length (by omega) (by omega) (.inl (by omega))
  set b := bsLoop g l.length 0 l.length with hb
  by_cases hp : g b = .gt
  · rw [if_pos hp] at h2
    have hb0 : b = 0 := by
      rcases h3 with h3 | h3
      · exact h3
      · exact absurd hp h3
    refine ⟨fun i hi e => by omega, fun hi => ?_⟩
    have := (gval b h1).1 hp
    simp only [h2]; exact this
  · rw [if_neg hp] at h2
    refine ⟨fun i hi e => ?_, fun hi => ?_⟩
    · have : i = b := by omega
      subst this
      cases hv : p l[b] with
      | true => rfl
      | false => exact absurd ((gval b h1).2 hv) hp
    · rcases h4 with h4 | h4 | h4
      · omega
      · have := (gval (b + 1) (by omega)).1 h4
        simp only [h2]; exact this
      · exact absurd h4 hp

/-- C122: on every map, in order or not, the entry before the entries found for a stat is of a stat before it, and the
entry after them of a stat after it -/
theorem C122_edges (m : Vec E Q B) (s : StatInst E) :
    (∀ i (hi : i < m.length), i + 1 = (m.range A s).1 → m[i].stat.cmp A s = .lt) ∧
    (∀ hi : (m.range A s).1 < m.length, m[(m.range A s).1].stat.cmp A s ≠ .lt) ∧
    (∀ i (hi : i < m.length), i + 1 = (m.range A s).2 → m[i].stat.cmp A s ≠ .gt) ∧
    (∀ hi : (m.range A s).2 < m.length, m[(m.range A s).2].stat.cmp A s = .gt) := by
  obtain ⟨h1, h2⟩ := partitionPoint_edges m (fun x => x.stat.cmp A s == .lt)
  obtain ⟨h3, h4⟩ := partitionPoint_edges m (fun x => x.stat.cmp A s != .gt)
  refine ⟨fun i hi e => by simpa using h1 i hi e, fun hi => by have := h2 hi; simp at this; exact this, fun i hi e => by simpa using h3 i hi e,
    fun hi => by have := h4 hi; simp at this; exact this⟩


variable [Std.TransOrd Q] [Std.LawfulEqOrd Q] {A}

/-- where the entries of a stat are in a map that is in order -/
theorem Vec.range_sorted {m : Vec E Q B} (h : Vec.Sorted A m) (s : StatInst E) (i : Nat) (hi : i < m.length) :
    m[i].stat = s ↔ (m.range A s).1 ≤ i ∧ i < (m.range A s).2 := by
  have hp := List.pairwise_map.1 h
  have lt_trans : ∀ a b : Entry E Q B, Vec.KLt A a.key b.key → a.stat.cmp A b.stat ≠ .gt := by
    intro a b hab hgt
    simp only [Vec.KLt, Key.cmp] at hab
    rw [hgt] at hab
    cases hab
  have p1 : m.Pairwise (fun a b => (b.stat.cmp A s == .lt) = true → (a.stat.cmp A s == .lt) = true) := by
    refine hp.imp ?_
    intro a b hab hb
    have hb : b.stat.cmp A s = .lt := by simpa using hb
    have := lt_trans a b hab
    simp only [beq_iff_eq]
    exact Std.TransCmp.lt_of_isLE_of_lt (by cases hc : a.stat.cmp A b.stat <;> simp_all) hb
  have p2 : m.Pairwise (fun a b => (b.stat.cmp A s != .gt) = true → (a.stat.cmp A s != .gt) = true) := by
    refine hp.imp ?_
    intro a b hab hb
    have hb : b.stat.cmp A s ≠ .gt := by simpa using hb
    have := lt_trans a b hab
    have h3 := Std.TransCmp.isLE_trans (cmp := StatInst.cmp A) (a := a.stat) (b := b.stat) (c := s)
      (by cases hc : a.stat.cmp A b.stat <;> simp_all) (by cases hc : b.stat.cmp A s <;> simp_all)
    cases hc : a.stat.cmp A s <;> simp_all
  obtain ⟨a1, a2, a3⟩ := partitionPoint_spec p1
  obtain ⟨b1, b2, b3⟩ := partitionPoint_spec p2
  have eqs : m[i].stat = s ↔ m[i].stat.cmp A s = .eq :=
    (Std.LawfulEqCmp.compare_eq_iff_eq (cmp := StatInst.cmp A)).symm
  have side : ∀ (p : Entry E Q B → Bool) (k : Nat), m.take k = m.filter p → m.drop k = m.filter (fun x => !p x) →
      (k ≤ i ↔ p m[i] = false) := by
    intro p k h1 h2
    constructor
    · intro hk
      have : m[i] ∈ m.drop k := List.mem_drop_iff_getElem.2 ⟨i - k, by omega, by congr 1; omega⟩
      rw [h2] at this
      simpa using (List.mem_filter.1 this).2
    · intro hp
      by_contra hk
      have : m[i] ∈ m.take k := List.mem_take_iff_getElem.2 ⟨i, by omega, rfl⟩
      rw [h1] at this
      rw [(List.mem_filter.1 this).2] at hp
      cases hp
  have s1 := side _ _ a2 a3
  have s2 := side _ _ b2 b3
  show m[i].stat = s ↔ partitionPoint m _ ≤ i ∧ i < partitionPoint m _
  rw [s1, ← not_le, s2, eqs]
  cases hc : m[i].stat.cmp A s <;> simp

theorem mapM_fst {α β γ : Type} {f : α → Res γ} {g : γ → β} {g' : α → β} (hf : ∀ a c, f a = .ok c → g c = g' a) :
    ∀ (l : List α) (r : List γ), l.mapM f = .ok r → r.map g = l.map g' := by
  intro l
  induction l with
  | nil => intro r h; cases h; rfl
  | cons a l ih =>
    intro r h
    rw [List.mapM_cons] at h
    cases ha : f a with
    | error e => rw [ha] at h; cases h
    | ok c =>
      rw [ha] at h
      cases hl : l.mapM f with
      | error e => rw [hl] at h; cases h
      | ok r' =>
        rw [hl] at h
        cases h
        rw [List.map_cons, List.map_cons, ih r' hl, hf a c ha]

/-- the qualifiers `iter` gives are those of the entries found -/
theorem StatMap.iter_quals {A : Addr E} {m : StatMap E Q} {s : StatInst E} {r : List (Qualifier Q × s.Val)}
    (h : StatMap.iter A m s = .ok r) : ∃ l, Vec.slice A m s = .ok l ∧ r.map (·.1) = l.map (·.qual) := by
  unfold StatMap.iter at h
  cases hl : Vec.slice A m s with
  | error e => rw [hl] at h; cases h
  | ok l =>
    rw [hl] at h
    refine ⟨l, rfl, mapM_fst ?_ l r h⟩
    intro a c hc
    cases hb : a.buf.read s.ty with
    | error e => rw [hb] at hc; cases hc
    | ok v => rw [hb] at hc; cases hc; rfl

/-- if the entries found for every stored stat have the right qualifiers, also with other addresses, they are the right
ones, and the map is in order for the other addresses too -/
theorem Vec.sorted_of_ranges {A A' : Addr E} {m : Vec E Q B} (h : Vec.Sorted A m)
    (hs : ∀ e ∈ m, ∃ l l', m.slice A e.stat = .ok l ∧ m.slice A' e.stat = .ok l' ∧ l'.map (·.qual) = l.map (·.qual)) :
    Vec.Sorted A' m := by
  have keys : ∀ i j (hi : i < m.length) (hj : j < m.length), m[i].stat = m[j].stat → m[i].qual = m[j].qual → i = j := by
    intro i j hi hj h1 h2
    have hn := h.nodup
    have hk : (m.map Entry.key)[i]'(by simpa using hi) = (m.map Entry.key)[j]'(by simpa using hj) := by
      simp only [List.getElem_map, Entry.key, h1, h2]
    exact (List.Nodup.getElem_inj_iff hn).1 hk
  have same : ∀ e ∈ m, m.range A' e.stat = m.range A e.stat := by
    intro e he
    obtain ⟨l, l', h1, h2, h3⟩ := hs e he
    have in_run := Vec.range_sorted h e.stat
    obtain ⟨r1, -⟩ := Vec.range_any (A := A) m e.stat
    obtain ⟨r1', r2'⟩ := Vec.range_any (A := A') m e.stat
    obtain ⟨ie, hie, rfl⟩ := List.mem_iff_getElem.1 he
    obtain ⟨c1, c2⟩ := (in_run ie hie).1 rfl
    set s := m[ie].stat with hsdef
    set a := (m.range A s).1 with ha
    set u := (m.range A s).2 with hu
    set a' := (m.range A' s).1 with ha'
    set u' := (m.range A' s).2 with hu'
    have e1 : l = (m.take u).drop a := by
      unfold Vec.slice at h1
      simp only at h1
      split at h1
      · cases h1
      · exact (Except.ok.inj h1).symm
    have e2 : l' = (m.take u').drop a' ∧ a' ≤ u' := by
      unfold Vec.slice at h2
      simp only at h2
      split at h2
      · cases h2
      · exact ⟨(Except.ok.inj h2).symm, by omega⟩
    have hlen : u' - a' = u - a := by
      have := congrArg List.length h3
      simp only [List.length_map, e1, e2.1, List.length_drop, List.length_take] at this
      omega
    have hq : ∀ j (hj : a + j < u), (m[a' + j]'(by omega)).qual = (m[a + j]'(by omega)).qual := by
      intro j hj
      have hl1 : j < l.length := by rw [e1, List.length_drop, List.length_take]; omega
      have hl2 : j < l'.length := by rw [e2.1, List.length_drop, List.length_take]; omega
      have h4 : (l'.map (·.qual))[j]? = (l.map (·.qual))[j]? := by rw [h3]
      rw [List.getElem?_map, List.getElem?_map, List.getElem?_eq_getElem hl1, List.getElem?_eq_getElem hl2] at h4
      have h5 := Option.some.inj h4
      simp only [e1, e2.1, List.getElem_drop, List.getElem_take] at h5
      exact h5
    obtain ⟨i, hi, b1, b2, b3⟩ : ∃ i, ∃ hi : i < m.length, a' ≤ i ∧ i < u' ∧ m[i].stat = s := by
      rcases r2' with r2' | r2'
      · omega
      · exact r2'
    obtain ⟨d1, d2⟩ := (in_run i hi).1 b3
    have : a' = a := by
      rcases Nat.lt_trichotomy a' a with hlt | heq | hgt
      · exfalso
        have k1 := hq (u - 1 - a) (by omega)
        have k2 : m[a' + (u - 1 - a)].stat = s := (in_run _ (by omega)).2 (by omega)
        have k3 : m[a + (u - 1 - a)].stat = s := (in_run _ (by omega)).2 (by omega)
        have := keys _ _ _ _ (k2.trans k3.symm) k1
        omega
      · exact heq
      · exfalso
        have k1 := hq 0 (by omega)
        have k2 : m[a' + 0].stat = s := (in_run _ (by omega)).2 (by omega)
        have k3 : m[a + 0].stat = s := (in_run _ (by omega)).2 (by omega)
        have := keys _ _ _ _ (k2.trans k3.symm) k1
        omega
    exact Prod.ext this (by show u' = u; omega)
  unfold Vec.Sorted
  have : Trans (Vec.KLt A' (Q := Q)) (Vec.KLt A') (Vec.KLt A') := ⟨fun h1 h2 => Vec.KLt.trans h1 h2⟩
  rw [← List.isChain_iff_pairwise, List.isChain_iff_getElem]
  intro i hi
  rw [List.length_map] at hi
  simp only [List.getElem_map]
  by_cases hst : m[i].stat = m[i + 1].stat
  · have := List.pairwise_iff_getElem.1 (List.pairwise_map.1 h) i (i + 1) (by omega) hi (by omega)
    simp only [Vec.KLt, Key.cmp, ← hst, Std.ReflCmp.compare_self] at this ⊢
    exact this
  · have hr := same m[i] (List.getElem_mem _)
    have h1 := (Vec.range_sorted h m[i].stat i (by omega)).1 rfl
    have h2 := mt (Vec.range_sorted h m[i].stat (i + 1) hi).2 (fun e => hst e.symm)
    have h3 : (m.range A' m[i].stat).2 = i + 1 := by rw [hr]; omega
    have h4 := (C122_edges A' m m[i].stat).2.2.2 (by omega)
    simp only [h3] at h4
    simp only [Vec.KLt, Key.cmp]
    rw [Std.OrientedCmp.lt_of_gt h4]
    rfl

/-- **C15, exactly, for the entries of a stat**: after loading, `iter` gives for every stored stat what it gave before,
if and only if the two processes order the vtables of the stored stats alike. -/
theorem C15_iter_iff {Q : Type} [BitFlags Q] [FlagSet Q] [Ord Q] [Std.TransOrd Q]
    [Std.LawfulEqOrd Q] (A A' : Addr E) (X : Serde E Q) (hX : X.Lawful) (h : List (MapOp E Q))
    (m : StatMap E Q) (hm : StatMap.run A h = .ok m) (reg : Registry E)
    (hsup : ∀ e ∈ m, X.supported e.stat.vt = true)
    (hreg : ∀ e ∈ m, ∃ n, e.stat.name = .ok n ∧ reg n = some e.stat) :
    ∃ d m', X.serMap m = .ok d ∧ X.deMap (.registry reg) d = .ok (some m') ∧
      ((∀ e ∈ m, StatMap.iter A' m' e.stat = StatMap.iter A m e.stat) ↔ SameOrder A A' m) := by
  obtain ⟨d, h1, h2⟩ := C13_roundtrip A X hX h m hm reg hsup hreg
  obtain ⟨a, _, r⟩ := reachRep A hm
  refine ⟨d, m, h1, h2, fun hall => ?_, fun hord e _ => ?_⟩
  · refine SameOrder.of_sorted r.sorted (Vec.sorted_of_ranges r.sorted fun e he => ?_)
    obtain ⟨L, hL, -⟩ := C10_iter A h m hm e.stat
    obtain ⟨l, e1, e2⟩ := StatMap.iter_quals hL
    obtain ⟨l', e3, e4⟩ := StatMap.iter_quals ((hall e he).trans hL)
    exact ⟨l, l', e1, e3, e4.symm.trans e2⟩
  · unfold StatMap.iter
    simp only [Vec.slice_eq r.sorted, Vec.slice_eq (r.other hord).sorted]

/-- a thousand entries: eleven comparisons -/
example : compares 1000 = 11 ∧ compares 1 = 1 ∧ compares 0 = 0 := by decide

/-- the entries compared for the last of five -/
example : (searchAsk 5).asked (fun i => compare i 4) = [2, 3, 4, 4] := by decide

end BSQ
