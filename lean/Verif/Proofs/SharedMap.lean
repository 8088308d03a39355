import Verif.Spec.SharedMap
import Verif.Proofs.StatMap
import Verif.Props.SharedTables
import Verif.Spec.Demo
/-!
# The map with shared addresses represents a map of spots

The vector algorithms are correct for any stats with different addresses (`Verif.Proofs.Vec`).  Here they are used
for the stats of an auxiliary program whose stat types *are* addresses.
-/
set_option linter.unusedSectionVars false
namespace BSQ

theorem binarySearchBy_map {α β : Type} (g : α → β) (l : List α) (f : β → Ordering) :
    binarySearchBy (l.map g) f = binarySearchBy l (fun x => f (g x)) := by
  unfold binarySearchBy
  dsimp only
  have : (fun i : Nat => ((l.map g)[i]?).elim .gt f) = (fun i : Nat => (l[i]?).elim .gt (fun x => f (g x))) := by
    funext i
    rw [List.getElem?_map]
    cases l[i]? <;> rfl
  have h2 : ∀ i : Nat, ((l.map g)[i]?).elim .gt f = (l[i]?).elim .gt (fun x => f (g x)) := fun i => congrFun this i
  simp only [h2, List.length_map]

theorem partitionPoint_map {α β : Type} (g : α → β) (l : List α) (p : β → Bool) :
    partitionPoint (l.map g) p = partitionPoint l (fun x => p (g x)) := by
  unfold partitionPoint
  rw [binarySearchBy_map]

namespace Shared
variable {E : Env} {Q B : Type} [Ord Q] (loc : E.S → Nat)

/-- a program whose stat types are addresses -/
abbrev spots : Env where
  U := Bool
  El := demoEl
  sv := demoSv
  layout _ := ⟨8, 8⟩
  opLayout _ := ⟨8, 8⟩
  S := Nat
  valTy _ := true
  statLayout _ := ⟨1, 1⟩
  Sel _ := Nat
  asIndex x := x
  fromIndex _ i := .ok i
  statName _ := ""
  values _ := []

/-- its addresses -/
abbrev spotAddr : Addr spots := ⟨fun n => n, fun h => h⟩

/-- where a stat is -/
abbrev spot (s : StatInst E) : StatInst spots := ⟨loc s.vt, s.index⟩

/-- an entry with its stat replaced by where it is -/
abbrev toP (e : Entry E Q B) : Entry spots Q B := ⟨spot loc e.stat, e.qual, e.buf⟩

/-- the same, remembering the entry -/
abbrev toE (e : Entry E Q B) : Entry spots Q (Entry E Q B) := ⟨spot loc e.stat, e.qual, e⟩

theorem spot_eq {a b : StatInst E} : spot loc a = spot loc b ↔ SameStat loc a b := by
  unfold SameStat spot
  constructor
  · intro h
    injection h with h1 h2
    exact ⟨h1, h2⟩
  · rintro ⟨h1, h2⟩; rw [h1, h2]

theorem toE_inj : Function.Injective (toE loc : Entry E Q B → _) := by
  intro a b h
  injection h

theorem search_toP (m : Vec E Q B) (q : Qualifier Q) (s : StatInst E) :
    search loc m q s = Vec.search spotAddr (m.map (toP loc)) q (spot loc s) := by
  unfold Vec.search
  rw [binarySearchBy_map]
  rfl

theorem put_toP (m : Vec E Q B) (q : Qualifier Q) (s : StatInst E) (b : B) :
    (put loc m q s b).map (toP loc) = (Vec.put spotAddr (m.map (toP loc)) q (spot loc s) b).1 := by
  unfold put Vec.put
  rw [search_toP]
  cases Vec.search spotAddr (m.map (toP loc)) q (spot loc s) with
  | ok i =>
    dsimp only
    apply List.ext_getElem?
    intro j
    simp only [List.getElem?_map, List.getElem?_modify]
    cases m[j]? with
    | none => rfl
    | some e => by_cases hij : i = j <;> simp [hij]
  | error i => exact List.map_insertIdx ..

theorem find_toP (m : Vec E Q B) (q : Qualifier Q) (s : StatInst E) :
    find loc m q s = Vec.find spotAddr (m.map (toP loc)) q (spot loc s) := by
  unfold find Vec.find
  rw [search_toP]
  cases Vec.search spotAddr (m.map (toP loc)) q (spot loc s) with
  | ok i =>
    simp only [List.getElem?_map, Option.map_map]
    rfl
  | error i => rfl

theorem update_toP (m : Vec E Q B) (q : Qualifier Q) (s : StatInst E) (b : B) :
    (update loc m q s b).map (toP loc) = Vec.update spotAddr (m.map (toP loc)) q (spot loc s) b := by
  unfold update Vec.update
  rw [search_toP]
  cases Vec.search spotAddr (m.map (toP loc)) q (spot loc s) with
  | ok i =>
    dsimp only
    apply List.ext_getElem?
    intro j
    simp only [List.getElem?_map, List.getElem?_modify]
    cases m[j]? with
    | none => rfl
    | some e => by_cases hij : i = j <;> simp [hij]
  | error i => rfl

theorem pull_toP (m : Vec E Q B) (q : Qualifier Q) (s : StatInst E) :
    (pull loc m q s).1.map (toP loc) = (Vec.pull spotAddr (m.map (toP loc)) q (spot loc s)).1 ∧
    (pull loc m q s).2 = (Vec.pull spotAddr (m.map (toP loc)) q (spot loc s)).2 := by
  unfold pull Vec.pull
  rw [search_toP]
  cases Vec.search spotAddr (m.map (toP loc)) q (spot loc s) with
  | ok i =>
    refine ⟨?_, ?_⟩
    · exact (List.eraseIdx_map ..).symm
    · simp only [List.getElem?_map, Option.map_map]
      rfl
  | error i => exact ⟨rfl, rfl⟩

theorem range_toE (m : Vec E Q B) (s : StatInst E) :
    range loc m s = Vec.range spotAddr (m.map (toE loc)) (spot loc s) := by
  unfold range Vec.range
  rw [partitionPoint_map, partitionPoint_map]
  rfl

variable [DecidableEq Q] [Std.TransOrd Q] [Std.LawfulEqOrd Q]

/-- strictly ascending by spot -/
def Ascending (m : Vec E Q B) : Prop := Vec.Sorted spotAddr (m.map (toP loc))

variable {loc}

theorem Ascending.le {m : Vec E Q B} (h : Ascending loc m) :
    (m.map (toE loc)).Pairwise (fun a b => a.stat.cmp spotAddr b.stat ≠ .gt) := by
  have := Vec.Sorted.stat_le h
  rw [List.pairwise_map] at this ⊢
  exact this

theorem range_eq {m : Vec E Q B} (h : Ascending loc m) (s : StatInst E) :
    (range loc m s).1 ≤ (range loc m s).2 ∧ (range loc m s).2 ≤ m.length ∧
    (m.take (range loc m s).2).drop (range loc m s).1 = m.filter (fun e => decide (SameStat loc e.stat s)) ∧
    m.take (range loc m s).1 ++ m.drop (range loc m s).2 = m.filter (fun e => decide (¬ SameStat loc e.stat s)) := by
  obtain ⟨h1, h2, h3, h4, h5⟩ := Vec.range_le h.le (spot loc s)
  obtain hr := Vec.removeAll_le h.le (spot loc s)
  unfold Vec.removeAll at hr
  simp only [← range_toE] at h1 h2 h4 hr
  rw [if_neg (by omega)] at hr
  obtain ⟨hr, -⟩ := Prod.mk.inj (Except.ok.inj hr)
  rw [List.length_map] at h2
  refine ⟨h1, h2, ?_, ?_⟩
  · apply List.map_injective_iff.2 (toE_inj loc)
    rw [List.map_drop, List.map_take, h4, List.filter_map]
    congr 1
    apply List.filter_congr
    intro e _
    exact decide_eq_decide.2 (spot_eq loc)
  · apply List.map_injective_iff.2 (toE_inj loc)
    rw [List.map_append, List.map_take, List.map_drop, hr, List.filter_map]
    congr 1
    apply List.filter_congr
    intro e _
    simp [SameStat]

theorem slice_eq {m : Vec E Q B} (h : Ascending loc m) (s : StatInst E) :
    slice loc m s = .ok (m.filter (fun e => decide (SameStat loc e.stat s))) := by
  obtain ⟨h1, h2, h3, _⟩ := range_eq h s
  unfold slice
  simp only [h3]
  rw [if_neg (by omega)]

theorem drain_eq {m : Vec E Q B} (h : Ascending loc m) (s : StatInst E) :
    drain loc m s = .ok (m.filter (fun e => decide (¬ SameStat loc e.stat s)),
      m.filter (fun e => decide (SameStat loc e.stat s))) := by
  obtain ⟨h1, h2, h3, h4⟩ := range_eq h s
  unfold drain
  simp only [h3, h4]
  rw [if_neg (by omega)]

/-- what `iter_mut` with a total function does to one entry -/
def touched (loc : E.S → Nat) (s : StatInst E) (g : B → B) (e : Entry E Q B) : Entry E Q B :=
  if SameStat loc e.stat s then { e with buf := g e.buf } else e

theorem sliceMut_eq {m : Vec E Q B} (h : Ascending loc m) (s : StatInst E) (f : B → Res B) (g : B → B)
    (hf : ∀ e ∈ m, SameStat loc e.stat s → f e.buf = .ok (g e.buf)) :
    sliceMut loc m s f = .ok (m.map (touched loc s g)) := by
  obtain ⟨h1, h2, h3, h4⟩ := range_eq h s
  obtain ⟨-, -, k3, -, k5⟩ := Vec.range_le h.le (spot loc s)
  simp only [← range_toE] at k3 k5
  unfold sliceMut
  simp only [h3]
  rw [if_neg (by omega)]
  have hmid : ∀ l : Vec E Q B, (∀ e ∈ l, e ∈ m ∧ SameStat loc e.stat s) →
      l.mapM (fun e => (do
        let b ← f e.buf
        .ok { e with buf := b } : Res (Entry E Q B))) = .ok (l.map (touched loc s g)) := by
    intro l
    induction l with
    | nil => intro _; rfl
    | cons e l ih =>
      intro hl
      obtain ⟨h5, h6⟩ := hl e (by simp)
      rw [List.mapM_cons, ih (fun y hy => hl y (by simp [hy])), hf e h5 h6]
      simp [touched, h6]
  rw [hmid _ (by intro e he; simpa using he)]
  simp only [Res.bind_ok]
  have hout : ∀ l : Vec E Q B, (∀ e ∈ l, ¬ SameStat loc e.stat s) → l.map (touched loc s g) = l := by
    intro l hl
    conv_rhs => rw [← List.map_id l]
    apply List.map_congr_left
    intro e he
    simp [touched, hl e he]
  have hmem : ∀ e : Entry E Q B, ∀ l : Vec E Q B, e ∈ l → toE loc e ∈ l.map (toE loc) :=
    fun e l he => List.mem_map_of_mem he
  have hpre : (m.take (range loc m s).1).map (touched loc s g) = m.take (range loc m s).1 := by
    apply hout
    intro e he hs
    have := hmem e _ he
    rw [List.map_take, k3] at this
    have h6 := (List.mem_filter.1 this).2
    simp only [beq_iff_eq] at h6
    exact Vec.stat_cmp_lt_ne h6 ((spot_eq loc).2 hs)
  have hpost : (m.drop (range loc m s).2).map (touched loc s g) = m.drop (range loc m s).2 := by
    apply hout
    intro e he hs
    have := hmem e _ he
    rw [List.map_drop, k5] at this
    have h6 := (List.mem_filter.1 this).2
    simp only [beq_iff_eq] at h6
    exact Vec.stat_cmp_gt_ne h6 ((spot_eq loc).2 hs)
  have hm : m = m.take (range loc m s).1 ++ (m.filter (fun e => decide (SameStat loc e.stat s)) ++
      m.drop (range loc m s).2) := by
    rw [← h3]
    conv_lhs => rw [← List.take_append_drop (range loc m s).2 m]
    rw [← List.append_assoc]
    congr 1
    conv_lhs => rw [← List.take_append_drop (range loc m s).1 (m.take (range loc m s).2)]
    rw [List.take_take, Nat.min_eq_left h1]
  conv_rhs => rw [hm]
  rw [List.map_append, List.map_append, hpre, hpost, List.append_assoc]

/-! ### representation -/

theorem seen_self (u : E.U) (x : E.El u) : E.seen u x = some x := by simp [Env.seen]

theorem seen_buf {u u' : E.U} (h : u = u') (x : E.El u) :
    ((E.seen u' x).map (Buf.val u') : Option (Buf E)) = some (.val u x) := by
  subst h; simp [Env.seen]

/-- the vector `m` holds exactly the map `a` of spots -/
structure SRep (loc : E.S → Nat) (m : StatMap E Q) (a : PMap E Q) : Prop where
  sorted : Ascending loc m
  holds : ∀ k : Key E Q, Vec.lookup (m.map (toP loc)) ⟨spot loc k.stat, k.qual⟩ = (a k).map (Buf.val k.stat.ty)
  storable : ∀ k, (a k).isSome → Storable (E.layout k.stat.ty)

namespace SRep
variable {m : StatMap E Q} {a : PMap E Q}

theorem empty : SRep loc (StatMap.new : StatMap E Q) PMap.empty :=
  ⟨List.Pairwise.nil, fun _ => rfl, fun k h => by simp [PMap.empty] at h⟩

theorem mem (h : SRep loc m a) {e : Entry E Q (Buf E)} (he : e ∈ m) :
    ∃ x : e.stat.Val, a e.key = some x ∧ e.buf = .val e.stat.ty x ∧ Storable (E.layout e.stat.ty) := by
  have h1 : toP loc e ∈ m.map (toP loc) := List.mem_map_of_mem he
  have := Vec.lookup_mem h.sorted h1
  have h2 := h.holds e.key
  have h3 : Vec.lookup (m.map (toP loc)) ⟨spot loc e.key.stat, e.key.qual⟩ = some e.buf := this
  rw [h3] at h2
  obtain ⟨x, hx, hb⟩ := Option.map_eq_some_iff.1 h2.symm
  exact ⟨x, hx, hb.symm, h.storable e.key (by rw [hx]; rfl)⟩

theorem get (h : SRep loc m a) (q : Qualifier Q) (s : StatInst E) : Shared.get loc m q s = .ok (a ⟨s, q⟩) := by
  unfold Shared.get
  rw [find_toP, Vec.find_eq h.sorted, h.holds ⟨s, q⟩]
  cases hc : a ⟨s, q⟩ with
  | none => rfl
  | some v =>
    simp only [Option.map_some, StatMap.readAs]
    rw [Buf.read_val (h.storable ⟨s, q⟩ (by rw [hc]; rfl))]
    rfl

theorem spotKey {k j : Key E Q} :
    (⟨spot loc k.stat, k.qual⟩ : Key spots Q) = ⟨spot loc j.stat, j.qual⟩ ↔ SameSpot loc k j := by
  unfold SameSpot
  rw [← spot_eq]
  constructor
  · intro h; injection h with h1 h2; exact ⟨h1, h2⟩
  · rintro ⟨h1, h2⟩; rw [h1, h2]

theorem put (hsep : Separates loc) (h : SRep loc m a) (q : Qualifier Q) (s : StatInst E) (v : s.Val)
    (hs : Storable (E.layout s.ty)) :
    SRep loc (Shared.put loc m q s (.val s.ty v)) (SpotMap.set loc a ⟨s, q⟩ v) := by
  obtain ⟨h1, h2, h3, h4, h5⟩ := Vec.put_spec h.sorted q (spot loc s) (.val s.ty v)
  refine ⟨?_, fun k => ?_, fun k hk => ?_⟩
  · unfold Ascending
    rw [put_toP]; exact h1
  · rw [put_toP, h2]
    have hk := spotKey (loc := loc) (k := k) (j := ⟨s, q⟩)
    unfold SpotMap.set
    by_cases hc : SameSpot loc k ⟨s, q⟩
    · rw [if_pos (hk.2 hc), if_pos hc]
      exact (seen_buf (hsep _ _ hc.1.1).symm v).symm
    · rw [if_neg (fun e => hc (hk.1 e)), if_neg hc]
      exact h.holds k
  · unfold SpotMap.set at hk
    by_cases hc : SameSpot loc k ⟨s, q⟩
    · have : k.stat.ty = s.ty := hsep _ _ hc.1.1
      rw [this]; exact hs
    · rw [if_neg hc] at hk; exact h.storable k hk

theorem update (hsep : Separates loc) (h : SRep loc m a) (q : Qualifier Q) (s : StatInst E) (v v' : s.Val)
    (hv : a ⟨s, q⟩ = some v) :
    SRep loc (Shared.update loc m q s (.val s.ty v')) (SpotMap.set loc a ⟨s, q⟩ v') := by
  have hp := h.put hsep q s v' (h.storable ⟨s, q⟩ (by rw [hv]; rfl))
  have : (Shared.update loc m q s (.val s.ty v')).map (toP loc) = (Shared.put loc m q s (.val s.ty v')).map (toP loc) := by
    rw [update_toP, put_toP, Vec.update_spec h.sorted]
    have := h.holds ⟨s, q⟩
    simp only at this
    rw [if_pos (by rw [this, hv]; rfl)]
  refine ⟨?_, fun k => ?_, hp.storable⟩
  · unfold Ascending; rw [this]; exact hp.sorted
  · rw [this]; exact hp.holds k

theorem store (hsep : Separates loc) (h : SRep loc m a) (q : Qualifier Q) (s : StatInst E) (v : s.Val) :
    ResRel (SRep loc) (Buf.from_ s.ty v >>= fun b => .ok (Shared.put loc m q s b)) (SpotMap.store loc a ⟨s, q⟩ v) := by
  rw [Buf.from_eq]
  unfold SpotMap.store
  by_cases hs : Storable (E.layout s.ty)
  · simp only [hs, if_true]
    exact h.put hsep q s v hs
  · simp only [hs, if_false]
    rfl

theorem pull (h : SRep loc m a) (q : Qualifier Q) (s : StatInst E) :
    Shared.remove loc m q s = .ok ((Shared.pull loc m q s).1, a ⟨s, q⟩) ∧
      SRep loc (Shared.pull loc m q s).1 (SpotMap.unset loc a ⟨s, q⟩) := by
  obtain ⟨h1, h2, h3, h4, h5⟩ := Vec.pull_spec h.sorted q (spot loc s)
  obtain ⟨p1, p2⟩ := pull_toP loc m q s
  constructor
  · have hg := h.get q s
    unfold Shared.get at hg
    rw [find_toP, Vec.find_eq h.sorted] at hg
    unfold Shared.remove
    simp only [p2, h3, hg, Res.bind_ok]
  · refine ⟨?_, fun k => ?_, fun k hk => ?_⟩
    · unfold Ascending; rw [p1]; exact h1
    · rw [p1, h2]
      have hk := spotKey (loc := loc) (k := k) (j := ⟨s, q⟩)
      unfold SpotMap.unset
      by_cases hc : SameSpot loc k ⟨s, q⟩
      · rw [if_pos (hk.2 hc), if_pos hc]; rfl
      · rw [if_neg (fun e => hc (hk.1 e)), if_neg hc]
        exact h.holds k
    · unfold SpotMap.unset at hk
      by_cases hc : SameSpot loc k ⟨s, q⟩
      · simp [hc] at hk
      · rw [if_neg hc] at hk; exact h.storable k hk

theorem removeAll (h : SRep loc m a) (s : StatInst E) :
    ResRel (SRep loc) (Shared.removeAll loc m s) (.ok (fun k => if SameStat loc k.stat s then none else a k)) := by
  unfold Shared.removeAll
  rw [drain_eq h.sorted]
  simp only [Res.bind_ok]
  rw [Rep.dropAll (l := m.filter (fun e => decide (SameStat loc e.stat s)))]
  · have hf : (m.filter (fun e => decide (¬ SameStat loc e.stat s))).map (toP loc) =
        (m.map (toP loc)).filter (fun e => decide (e.stat ≠ spot loc s)) := by
      rw [List.filter_map]
      congr 1
      apply List.filter_congr
      intro e _
      simp [SameStat]
    refine ⟨?_, fun k => ?_, fun k hk => ?_⟩
    · unfold Ascending; rw [hf]; exact Vec.sorted_filter h.sorted _
    · rw [hf, Vec.lookup_filter_stat, h.holds k]
      simp only [spot_eq]
      by_cases hk : SameStat loc k.stat s <;> simp [hk]
    · by_cases hk' : SameStat loc k.stat s
      · simp [hk'] at hk
      · simp only [hk', if_false] at hk; exact h.storable k hk
  · intro e he
    obtain ⟨x, _, hx⟩ := h.mem (List.mem_filter.1 he).1
    exact ⟨x, hx⟩

theorem clear (h : SRep loc m a) : StatMap.clear m = .ok [] := by
  unfold StatMap.clear
  rw [Rep.dropAll (l := m)]
  · rfl
  · intro e he
    obtain ⟨x, _, hx⟩ := h.mem he
    exact ⟨x, hx⟩

/-- what a function of values does to a buffer -/
def onBuf (s : StatInst E) (f : s.Val → s.Val) (b : Buf E) : Buf E :=
  match b.get s.ty with
  | .ok v => .val s.ty (f v)
  | .error _ => b

theorem get_at {u u' : E.U} (h : u = u') (x : E.El u) : (Buf.val u x : Buf E).get u' = .ok (h ▸ x) := by
  simp [Buf.get, h]

/-- the value in a buffer -/
def valAt (s : StatInst E) (b : Buf E) : s.Val :=
  match b.get s.ty with
  | .ok v => v
  | .error _ => s.sv.default

theorem iterMut (hsep : Separates loc) (h : SRep loc m a) (s : StatInst E) (f : s.Val → s.Val) :
    ResRel (SRep loc) (Shared.iterMut loc m s (fun v => .ok (f v))) (.ok (SpotMap.mapStat loc a s f)) := by
  unfold Shared.iterMut
  rw [sliceMut_eq h.sorted s _ (onBuf s f)]
  · have hkey : ∀ e : Entry E Q (Buf E), (toP loc (touched loc s (onBuf s f) e)).key = (toP loc e).key := by
      intro e
      unfold touched
      split <;> rfl
    refine ⟨?_, fun k => ?_, fun k hk => ?_⟩
    · have hs := h.sorted
      unfold Ascending Vec.Sorted at hs ⊢
      rw [List.map_map, List.map_map] at *
      rw [show (Entry.key ∘ toP loc) ∘ touched loc s (onBuf s f) = Entry.key ∘ toP loc from funext hkey]
      exact hs
    · have e1 : Vec.lookup ((m.map (touched loc s (onBuf s f))).map (toP loc)) ⟨spot loc k.stat, k.qual⟩ =
          (Vec.lookup (m.map (toP loc)) ⟨spot loc k.stat, k.qual⟩).map
            (fun b => if SameStat loc k.stat s then onBuf s f b else b) := by
        unfold Vec.lookup
        rw [List.map_map, List.find?_map, List.find?_map, Option.map_map, Option.map_map, Option.map_map]
        have : (fun e : Entry spots Q (Buf E) => decide (e.key = ⟨spot loc k.stat, k.qual⟩)) ∘
            (toP loc ∘ touched loc s (onBuf s f)) =
            (fun e : Entry spots Q (Buf E) => decide (e.key = ⟨spot loc k.stat, k.qual⟩)) ∘ toP loc := by
          funext e
          simp only [Function.comp, hkey]
        rw [this]
        cases hf : m.find? ((fun e : Entry spots Q (Buf E) => decide (e.key = ⟨spot loc k.stat, k.qual⟩)) ∘ toP loc) with
        | none => rfl
        | some e =>
          have hk := List.find?_some hf
          simp only [Function.comp, decide_eq_true_eq] at hk
          have hst : SameStat loc e.stat k.stat := by
            rw [← spot_eq]
            exact congrArg Key.stat hk
          have : SameStat loc e.stat s ↔ SameStat loc k.stat s := by
            unfold SameStat at *
            rw [hst.1, hst.2]
          simp only [Option.map_some, Function.comp, touched, this]
          split <;> rfl
      rw [e1, h.holds k]
      unfold SpotMap.mapStat
      by_cases hc : SameStat loc k.stat s
      · simp only [if_pos hc]
        have hu : k.stat.ty = s.ty := hsep _ _ hc.1
        cases a k with
        | none => rfl
        | some x =>
          simp only [Option.map_some, Option.bind_some, onBuf, get_at hu]
          have : E.seen s.ty x = some (hu ▸ x) := by simp [Env.seen, hu]
          rw [this]
          exact (seen_buf hu.symm _).symm
      · simp only [if_neg hc]
        cases a k <;> rfl
    · unfold SpotMap.mapStat at hk
      by_cases hc : SameStat loc k.stat s
      · rw [if_pos hc] at hk
        refine h.storable k ?_
        cases ha : a k with
        | none => rw [ha] at hk; exact hk
        | some x => rfl
      · rw [if_neg hc] at hk; exact h.storable k hk
  · intro e he hc
    obtain ⟨x, _, hx, hst⟩ := h.mem he
    have hu : e.stat.ty = s.ty := hsep _ _ hc.1
    unfold Buf.read onBuf
    rw [validate_eq, if_pos (hu ▸ hst), hx, get_at hu]
    rfl

theorem step (hsep : Separates loc) (h : SRep loc m a) (o : MapOp E Q) :
    ResRel (SRep loc) (Shared.step loc m o) (SpotMap.step loc a o) := by
  cases o with
  | insert q s v => exact h.store hsep q s v
  | insertBase q s b => exact h.store hsep q s _
  | modify q s o =>
    simp only [Shared.step, Shared.modify, SpotMap.step, h.get q s, Res.bind_ok]
    cases hc : a ⟨s, q⟩ with
    | none => exact ResRel.bind_same _ (fun v => h.store hsep q s v)
    | some v => exact ResRel.bind_same _ (fun v' => h.update hsep q s v v' hc)
  | modifyWith q s f =>
    simp only [Shared.step, Shared.modifyWith, SpotMap.step, h.get q s, Res.bind_ok]
    cases hc : a ⟨s, q⟩ with
    | none => exact ResRel.bind_same _ (fun v => h.store hsep q s v)
    | some v => exact ResRel.bind_same _ (fun v' => h.update hsep q s v v' hc)
  | getMut q s f =>
    simp only [Shared.step, Shared.getMut, SpotMap.step, h.get q s, Res.bind_ok]
    cases hc : a ⟨s, q⟩ with
    | none => exact h
    | some v => exact ResRel.bind_same _ (fun v' => h.update hsep q s v v' hc)
  | iterMut s f => exact h.iterMut hsep s f
  | remove q s =>
    simp only [Shared.step, SpotMap.step, (h.pull q s).1, Res.bind_ok]
    exact (h.pull q s).2
  | removeAll s => exact h.removeAll s
  | clear =>
    simp only [Shared.step, SpotMap.step, h.clear]
    exact SRep.empty

theorem runFrom (hsep : Separates loc) (h : SRep loc m a) (os : List (MapOp E Q)) :
    ResRel (SRep loc) (Shared.runFrom loc m os) (SpotMap.runFrom loc a os) := by
  induction os generalizing m a with
  | nil => exact h
  | cons o os ih => exact (h.step hsep o).bind (fun m' a' h' => ih h')

theorem run (hsep : Separates loc) (os : List (MapOp E Q)) :
    ResRel (SRep loc) (Shared.run loc os) (SpotMap.run loc os) :=
  SRep.empty.runFrom hsep os

/-- the entries of a stat and of those that cannot be told apart from it -/
theorem statList (hsep : Separates loc) (h : SRep loc m a) (s : StatInst E) :
    ∃ L : List (Qualifier Q × s.Val),
      (m.filter (fun e => decide (SameStat loc e.stat s))).map (fun e => (e.qual, e.buf)) =
        L.map (fun p => (p.1, .val s.ty p.2)) ∧
      (L.map (·.1)).Pairwise KeyBefore.QualBefore ∧ (∀ q v, (q, v) ∈ L ↔ a ⟨s, q⟩ = some v) ∧
      (L ≠ [] → Storable (E.layout s.ty)) := by
  have hb : ∀ e ∈ m, SameStat loc e.stat s → e.buf = .val s.ty (valAt s e.buf) ∧ a ⟨s, e.qual⟩ = some (valAt s e.buf) := by
    intro e he hc
    obtain ⟨x, hx, hb, _⟩ := h.mem he
    have hu : e.stat.ty = s.ty := hsep _ _ hc.1
    have h1 : e.buf = .val s.ty (valAt s e.buf) := by
      rw [hb, valAt, get_at hu]
      have := seen_buf (E := E) hu x
      simp only [Env.seen, hu, dite_true, Option.map_some] at this
      exact (Option.some.inj this).symm
    refine ⟨h1, ?_⟩
    have h2 := h.holds e.key
    have h3 := h.holds ⟨s, e.qual⟩
    have h4 : spot loc e.key.stat = spot loc s := (spot_eq loc).2 hc
    rw [h4] at h2
    have h5 : ((a ⟨s, e.qual⟩).map (Buf.val s.ty) : Option (Buf E)) = (a e.key).map (Buf.val e.key.stat.ty) := by
      rw [← h2, ← h3]
    rw [hx] at h5
    have h6 : ((a ⟨s, e.qual⟩).map (Buf.val s.ty) : Option (Buf E)) = some e.buf := by
      rw [h5, hb]; rfl
    obtain ⟨y, hy, hy'⟩ := Option.map_eq_some_iff.1 h6
    rw [h1] at hy'
    injection hy' with _ hy'
    rw [hy, hy']
  have hbf : ∀ e ∈ m.filter (fun e => decide (SameStat loc e.stat s)),
      e.buf = .val s.ty (valAt s e.buf) ∧ a ⟨s, e.qual⟩ = some (valAt s e.buf) := by
    intro e he
    obtain ⟨h1, h2⟩ := List.mem_filter.1 he
    exact hb e h1 (of_decide_eq_true h2)
  have hmem : ∀ q v, (q, v) ∈ (m.filter (fun e => decide (SameStat loc e.stat s))).map
      (fun e => (e.qual, valAt s e.buf)) ↔ a ⟨s, q⟩ = some v := by
    intro q v
    constructor
    · intro hm
      obtain ⟨e, he, hq⟩ := List.mem_map.1 hm
      obtain ⟨h1, h2⟩ := Prod.mk.inj hq
      rw [← h1, ← h2]
      exact (hbf e he).2
    · intro hv
      have h3 := h.holds ⟨s, q⟩
      rw [hv] at h3
      obtain ⟨e', he', hk, hb'⟩ := Vec.mem_lookup h3
      obtain ⟨e, he, rfl⟩ := List.mem_map.1 he'
      have hq : e.qual = q := congrArg Key.qual hk
      have hc : SameStat loc e.stat s := by
        rw [← spot_eq]
        exact congrArg Key.stat hk
      refine List.mem_map.2 ⟨e, List.mem_filter.2 ⟨he, decide_eq_true hc⟩, ?_⟩
      have := (hb e he hc).2
      rw [hq, hv] at this
      rw [hq, ← Option.some.inj this]
  refine ⟨_, ?_, ?_, hmem, ?_⟩
  · rw [List.map_map]
    apply List.map_congr_left
    intro e he
    simp only [Function.comp]
    rw [← (hbf e he).1]
  · rw [List.map_map, List.pairwise_map, List.pairwise_filter]
    have hs := h.sorted
    unfold Ascending Vec.Sorted at hs
    rw [List.map_map, List.pairwise_map] at hs
    refine hs.imp ?_
    intro x y hxy hx hy
    have hx := of_decide_eq_true hx
    have hy := of_decide_eq_true hy
    have hxs := (spot_eq loc).2 hx
    have hys := (spot_eq loc).2 hy
    have hc : ((spot loc x.stat).cmp spotAddr (spot loc y.stat)).then (x.qual.cmp y.qual) = .lt := hxy
    rw [hxs, hys, Std.ReflCmp.compare_self (cmp := StatInst.cmp spotAddr)] at hc
    simp only [Ordering.eq_then, Qualifier.cmp, Ordering.then_eq_lt] at hc
    rcases hc with h3 | ⟨h3, h4⟩
    · exact .inl h3
    · exact .inr ⟨Std.LawfulEqCmp.eq_of_compare h3, h4⟩
  · intro hne
    obtain ⟨p, hp⟩ := List.exists_mem_of_ne_nil _ hne
    exact h.storable ⟨s, p.1⟩ (by rw [(hmem p.1 p.2).1 hp]; rfl)

end SRep
end Shared
end BSQ
