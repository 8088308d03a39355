import Verif.Spec.Repair
import Verif.Props.AnyOrder
import Verif.Props.Multimap
import Verif.Props.Unwind
import Verif.Props.Serde
/-!
# C105: maps that are out of order keep their contents, and `extend` puts them in order again
-/
set_option linter.unusedSectionVars false
namespace BSQ
variable {E : Env} {Q : Type} [DecidableEq Q] [Ord Q] [Std.TransOrd Q] [Std.LawfulEqOrd Q] {A : Addr E}

/-- the place for a new entry lies in the vector, whatever its order -/
theorem Vec.search_error_le {B : Type} {m : Vec E Q B} {q : Qualifier Q} {s : StatInst E} {i : Nat}
    (h : m.search A q s = .error i) : i ≤ m.length := by
  unfold Vec.search binarySearchBy at h
  simp only at h
  split at h
  · cases h; omega
  · rename_i h0
    have hb := bsLoop_lt (fun i => (m[i]?).elim .gt (fun e => e.keyCmp A s q)) m.length 0 m.length (by omega)
    split at h
    · cases h
    · cases h; omega
    · cases h; omega

/-- what a search finds in a vector in any order, and what follows for the methods built on it -/
theorem Vec.cases_any {l : List (Keyed E Q)} (hst : ∀ x ∈ l, Storable (E.layout x.1.stat.ty)) (q : Qualifier Q)
    (s : StatInst E) :
    (∃ pre v post, l = pre ++ (⟨⟨s, q⟩, v⟩ : Keyed E Q) :: post ∧
      StatMap.get A (l.map Keyed.entry) q s = .ok (some v) ∧
      Vec.pull A (l.map Keyed.entry) q s = ((pre ++ post).map Keyed.entry, some (.val s.ty v)) ∧
      Storable (E.layout s.ty) ∧
      ∀ v', Vec.update A (l.map Keyed.entry) q s (.val s.ty v') =
          (pre ++ (⟨⟨s, q⟩, v'⟩ : Keyed E Q) :: post).map Keyed.entry ∧
        (Vec.put A (l.map Keyed.entry) q s (.val s.ty v')).1 =
          (pre ++ (⟨⟨s, q⟩, v'⟩ : Keyed E Q) :: post).map Keyed.entry) ∨
    (∃ pre post, l = pre ++ post ∧ StatMap.get A (l.map Keyed.entry) q s = .ok none ∧
      Vec.pull A (l.map Keyed.entry) q s = (l.map Keyed.entry, none) ∧
      ∀ v', (Vec.put A (l.map Keyed.entry) q s (.val s.ty v')).1 =
        (pre ++ (⟨⟨s, q⟩, v'⟩ : Keyed E Q) :: post).map Keyed.entry) := by
  cases hs : Vec.search A (l.map Keyed.entry) q s with
  | ok i =>
    left
    obtain ⟨hi, hk⟩ := Vec.search_ok_key hs
    have hi' : i < l.length := by simpa using hi
    rw [List.getElem_map] at hk
    have hk' : l[i].1 = ⟨s, q⟩ := hk
    have hl : l = l.take i ++ l[i] :: l.drop (i + 1) := by simp
    generalize hx : l[i] = x at hk' hl
    obtain ⟨k, v⟩ := x
    simp only at hk'
    subst hk'
    generalize hpre : l.take i = pre at hl
    generalize l.drop (i + 1) = post at hl
    have hlen : (pre.map (Keyed.entry (E := E) (Q := Q))).length = i := by
      rw [List.length_map, ← hpre, List.length_take]; omega
    subst hl
    have hstor : Storable (E.layout s.ty) := hst ⟨⟨s, q⟩, v⟩ (by simp)
    have hm : (pre ++ (⟨⟨s, q⟩, v⟩ : Keyed E Q) :: post).map Keyed.entry =
        pre.map Keyed.entry ++ ⟨s, q, .val s.ty v⟩ :: post.map Keyed.entry := by simp [Keyed.entry]
    rw [← hlen] at hs
    rw [hm] at hs ⊢
    refine ⟨pre, v, post, rfl, ?_, ?_, hstor, fun v' => ⟨?_, ?_⟩⟩
    · unfold StatMap.get Vec.find
      rw [hs]
      simp only [List.getElem?_append_right (Nat.le_refl _), Nat.sub_self, List.getElem?_cons_zero, Option.map_some,
        StatMap.readAs, Buf.read_val hstor, Res.bind_ok]
    · rw [Vec.pull_found hs]; simp
    · unfold Vec.update
      rw [hs]
      simp only [modify_mid]; simp [Keyed.entry]
    · rw [Vec.put_found _ hs]; simp [Keyed.entry]
  | error i =>
    right
    have hi := Vec.search_error_le hs
    have hl : l = l.take i ++ l.drop i := by simp
    have hlen : ((l.take i).map (Keyed.entry (E := E) (Q := Q))).length = i := by
      rw [List.length_map, List.length_take]; simp at hi; omega
    refine ⟨l.take i, l.drop i, hl, ?_, Vec.pull_absent hs, fun v' => ?_⟩
    · unfold StatMap.get Vec.find
      rw [hs]; rfl
    · have hm : l.map Keyed.entry = (l.take i).map Keyed.entry ++ (l.drop i).map Keyed.entry := by
        rw [← List.map_append, List.take_append_drop]
      rw [← hlen] at hs
      rw [hm] at hs ⊢
      rw [Vec.put_absent _ hs]; simp [Keyed.entry]

namespace StatMap.Holds

theorem intro {l : List (Keyed E Q)} (h : ∀ x ∈ l, Storable (E.layout x.1.stat.ty)) :
    StatMap.Holds (l.map Keyed.entry) (↑l) := ⟨l, rfl, rfl, h⟩

theorem storable_mid {pre post : List (Keyed E Q)} {k : Key E Q} {v : k.Val}
    (h : ∀ x ∈ pre ++ post, Storable (E.layout x.1.stat.ty)) (hk : Storable (E.layout k.stat.ty)) :
    ∀ x ∈ pre ++ (⟨k, v⟩ : Keyed E Q) :: post, Storable (E.layout x.1.stat.ty) := by
  intro x hx
  simp only [List.mem_append, List.mem_cons] at hx h
  rcases hx with hx | rfl | hx
  · exact h x (.inl hx)
  · exact hk
  · exact h x (.inr hx)

theorem storable_rest {pre post : List (Keyed E Q)} {x : Keyed E Q}
    (h : ∀ y ∈ pre ++ x :: post, Storable (E.layout y.1.stat.ty)) :
    ∀ y ∈ pre ++ post, Storable (E.layout y.1.stat.ty) := by
  intro y hy
  simp only [List.mem_append, List.mem_cons] at hy h
  rcases hy with hy | hy
  · exact h y (.inl hy)
  · exact h y (.inr (.inr hy))

/-- a call on a map in any order -/
def Loose (b : Bag E Q) (o : MultiOp E Q) : Res (StatMap E Q) → Prop
  | .ok m' => ∃ b', StatMap.Holds m' b' ∧ b.UnorderedStep b' o
  | .error e => b.UnorderedFails e o

theorem insert {l : List (Keyed E Q)} (hst : ∀ x ∈ l, Storable (E.layout x.1.stat.ty)) (q : Qualifier Q)
    (s : StatInst E) (v : s.Val) :
    Loose (↑l) (.one (.insert q s v)) (StatMap.insert A (l.map Keyed.entry) q s v) := by
  unfold StatMap.insert
  rw [Buf.from_eq]
  by_cases hs : Storable (E.layout s.ty)
  · rw [if_pos hs]
    simp only [Res.bind_ok]
    rcases Vec.cases_any (A := A) hst q s with ⟨pre, u, post, rfl, -, -, -, hp⟩ | ⟨pre, post, rfl, -, -, hp⟩
    · rw [(hp v).2]
      exact ⟨_, .intro (storable_mid (storable_rest hst) hs),
        .inl ⟨u, v, _, BRep.perm_swap, rfl, BRep.perm_swap⟩⟩
    · rw [hp v]
      exact ⟨_, .intro (storable_mid hst hs), .inr ⟨hs, BRep.perm_swap⟩⟩
  · rw [if_neg hs]; exact ⟨hs, rfl⟩

theorem modifyWith {l : List (Keyed E Q)} (hst : ∀ x ∈ l, Storable (E.layout x.1.stat.ty)) (q : Qualifier Q)
    (s : StatInst E) (f : s.Val → Res s.Val) :
    Loose (↑l) (.one (.modifyWith q s f)) (StatMap.modifyWith A (l.map Keyed.entry) q s f) := by
  unfold StatMap.modifyWith
  rcases Vec.cases_any (A := A) hst q s with ⟨pre, u, post, rfl, hg, -, hs, hp⟩ | ⟨pre, post, rfl, hg, -, hp⟩
  · rw [hg]
    simp only [Res.bind_ok]
    cases hf : f u with
    | error e => exact .inl ⟨u, by simp, hf⟩
    | ok v =>
      show Loose _ _ (.ok (Vec.update A _ q s (.val s.ty v)))
      rw [(hp v).1]
      exact ⟨_, .intro (storable_mid (storable_rest hst) hs),
        .inl ⟨u, v, _, BRep.perm_swap, hf, BRep.perm_swap⟩⟩
  · rw [hg]
    simp only [Res.bind_ok]
    cases hf : f s.sv.default with
    | error e => exact .inr (.inl hf)
    | ok v =>
      simp only [Res.bind_ok, Buf.from_eq]
      by_cases hs : Storable (E.layout s.ty)
      · rw [if_pos hs]
        show Loose _ _ (.ok (Vec.put A _ q s (.val s.ty v)).1)
        rw [hp v]
        exact ⟨_, .intro (storable_mid hst hs), .inr ⟨v, hf, hs, BRep.perm_swap⟩⟩
      · rw [if_neg hs]; exact .inr (.inr ⟨by rw [hf]; rfl, hs, rfl⟩)

theorem getMut {l : List (Keyed E Q)} (hst : ∀ x ∈ l, Storable (E.layout x.1.stat.ty)) (q : Qualifier Q)
    (s : StatInst E) (f : s.Val → Res s.Val) :
    Loose (↑l) (.one (.getMut q s f)) (StatMap.getMut A (l.map Keyed.entry) q s f) := by
  unfold StatMap.getMut
  rcases Vec.cases_any (A := A) hst q s with ⟨pre, u, post, rfl, hg, -, hs, hp⟩ | ⟨pre, post, rfl, hg, -, hp⟩
  · rw [hg]
    simp only [Res.bind_ok]
    cases hf : f u with
    | error e => exact ⟨u, by simp, hf⟩
    | ok v =>
      show Loose _ _ (.ok (Vec.update A _ q s (.val s.ty v)))
      rw [(hp v).1]
      exact ⟨_, .intro (storable_mid (storable_rest hst) hs),
        .inl ⟨u, v, _, BRep.perm_swap, hf, BRep.perm_swap⟩⟩
  · rw [hg]; exact ⟨_, .intro hst, .inr rfl⟩

theorem remove {l : List (Keyed E Q)} (hst : ∀ x ∈ l, Storable (E.layout x.1.stat.ty)) (q : Qualifier Q)
    (s : StatInst E) :
    Loose (↑l) (.one (.remove q s)) (StatMap.remove A (l.map Keyed.entry) q s >>= fun r => .ok r.1) := by
  unfold StatMap.remove
  rcases Vec.cases_any (A := A) hst q s with ⟨pre, u, post, rfl, -, hp, hs, -⟩ | ⟨pre, post, rfl, -, hp, -⟩
  · rw [hp]
    simp only [StatMap.readAs, Buf.read_val hs, Res.bind_ok]
    exact ⟨_, .intro (storable_rest hst), .inl ⟨u, BRep.perm_swap⟩⟩
  · rw [hp]; exact ⟨_, .intro hst, .inr rfl⟩

theorem bufs {l : List (Keyed E Q)} (hst : ∀ x ∈ l, Storable (E.layout x.1.stat.ty)) :
    ∀ e ∈ l.map Keyed.entry, ∃ x, e.buf = .val e.stat.ty x ∧ Storable (E.layout e.stat.ty) := by
  intro e he
  obtain ⟨x, hx, rfl⟩ := List.mem_map.1 he
  exact ⟨x.2, rfl, hst x hx⟩

theorem removeAll {l : List (Keyed E Q)} (hst : ∀ x ∈ l, Storable (E.layout x.1.stat.ty)) (s : StatInst E) :
    Loose (↑l) (.one (.removeAll s)) (StatMap.removeAll A (l.map Keyed.entry) s) := by
  unfold StatMap.removeAll
  obtain ⟨pre, d, post, -, h2, h3⟩ := C104_remove_all (A := A) (l.map Keyed.entry) s
  rw [h3]
  simp only [Res.bind_ok]
  rw [Rep.dropAll fun e he => bufs hst e (by rw [h2]; simp [he])]
  obtain ⟨pre', rest', rfl, hpre, hrest⟩ := List.map_eq_append_iff.1 h2
  obtain ⟨d', post', rfl, hd, hpost⟩ := List.map_eq_append_iff.1 hrest
  subst hpre hd hpost
  have hsub : (pre' ++ post').Sublist (pre' ++ (d' ++ post')) :=
    (List.Sublist.refl _).append (List.sublist_append_right _ _)
  refine ⟨↑(pre' ++ post'), ?_, Multiset.coe_le.2 hsub.subperm, ?_⟩
  · rw [← List.map_append]
    exact .intro fun x hx => hst x (hsub.mem hx)
  · intro hno
    have ha := (C104_absent (A := A) ((pre' ++ (d' ++ post')).map Keyed.entry) s (by
      intro e he
      obtain ⟨x, hx, rfl⟩ := List.mem_map.1 he
      exact hno x (by simpa using hx))).2
    rw [h3] at ha
    have hd : d'.map Keyed.entry = [] := congrArg Prod.snd (Except.ok.inj ha)
    rw [List.map_eq_nil_iff] at hd
    subst hd
    rfl

theorem clear {l : List (Keyed E Q)} (hst : ∀ x ∈ l, Storable (E.layout x.1.stat.ty)) :
    Loose (↑l) (.one .clear) (StatMap.clear (l.map Keyed.entry)) := by
  unfold StatMap.clear
  rw [Rep.dropAll (bufs hst)]
  exact ⟨0, ⟨[], rfl, rfl, by simp⟩, rfl⟩

/-- `extend` does not need the map to be in order, and leaves it in order -/
theorem extend_brep {l : List (Keyed E Q)} (hst : ∀ x ∈ l, Storable (E.layout x.1.stat.ty)) (T : E.S)
    (its : List (Qualifier Q × Nat × E.El (E.valTy T))) :
    match StatMap.extend A (l.map Keyed.entry) T its with
    | .ok m' => ∃ l', BRep A m' l' ∧ (↑l' : Bag E Q) = ↑l + Bag.ofItems T its
    | .error e => Bag.UnorderedFails (↑l) e (.extend T its) := by
  unfold StatMap.extend
  rw [BRep.entries]
  by_cases hc : its = [] ∨ Storable (E.layout (E.valTy T))
  · rw [if_pos hc]
    simp only [Res.bind_ok]
    obtain ⟨l', hp, hr⟩ := BRep.sortedList (A := A) (l ++ BRep.items T its) (by
      intro x hx
      rcases List.mem_append.1 hx with hx | hx
      · exact hst x hx
      · obtain ⟨t, ht, rfl⟩ := List.mem_map.1 hx
        rcases hc with rfl | hc
        · simp at ht
        · exact hc)
    rw [List.map_append] at hr
    exact ⟨l', hr, by rw [Multiset.coe_eq_coe.2 hp, ← Multiset.coe_add]; rfl⟩
  · rw [if_neg hc]
    push Not at hc
    exact ⟨hc.1, hc.2, rfl⟩

end StatMap.Holds

open StatMap.Holds in
/-- **C105** On a map in any order, calls other than `iter_mut` touch only values under the key they are given (or the
run of `remove_all`): what the map holds is replaced, added to or taken from one value at a time, and nothing else is
lost or changed.  They fail only if the caller's code does or the value cannot be stored. -/
theorem C105_contents (m : StatMap E Q) (b : Bag E Q) (h : m.Holds b) (o : MultiOp E Q) (ho : o.NotIterMut) :
    match StatMap.multiStep A m o with
    | .ok m' => ∃ b', m'.Holds b' ∧ b.UnorderedStep b' o
    | .error e => b.UnorderedFails e o := by
  obtain ⟨l, rfl, rfl, hst⟩ := h
  change Loose (↑l) o (StatMap.multiStep A (l.map Keyed.entry) o)
  cases o with
  | extend T its =>
    have := extend_brep (A := A) hst T its
    change Loose _ _ (StatMap.extend A (l.map Keyed.entry) T its)
    cases hr : StatMap.extend A (l.map Keyed.entry) T its with
    | error e => rw [hr] at this; exact this
    | ok m' =>
      rw [hr] at this
      obtain ⟨l', h1, h2⟩ := this
      exact ⟨_, ⟨l', rfl, h1.eq, h1.storable⟩, h2⟩
  | collect T its =>
    have := extend_brep (A := A) (l := []) (by simp) T its
    change Loose _ _ (StatMap.extend A (([] : List (Keyed E Q)).map Keyed.entry) T its)
    cases hr : StatMap.extend A (([] : List (Keyed E Q)).map Keyed.entry) T its with
    | error e => rw [hr] at this; exact this
    | ok m' =>
      rw [hr] at this
      obtain ⟨l', h1, h2⟩ := this
      exact ⟨_, ⟨l', rfl, h1.eq, h1.storable⟩, by rw [h2]; exact Multiset.zero_add _⟩
  | one o =>
    cases o with
    | insert q s v => exact StatMap.Holds.insert hst q s v
    | insertBase q s x => exact StatMap.Holds.insert hst q s (s.sv.fromBase x)
    | modify q s o => exact StatMap.Holds.modifyWith hst q s o.writeTo
    | modifyWith q s f => exact StatMap.Holds.modifyWith hst q s f
    | getMut q s f => exact StatMap.Holds.getMut hst q s f
    | iterMut s f => exact ho.elim
    | remove q s => exact StatMap.Holds.remove hst q s
    | removeAll s => exact StatMap.Holds.removeAll hst s
    | clear => exact StatMap.Holds.clear hst

/-- **C105** An `extend` whose iterator panics loses nothing: the map holds what it held, and the items given before
the panic. -/
theorem C105_interrupted (m m' : StatMap E Q) (b : Bag E Q) (h : m.Holds b) (T : E.S)
    (its : List (Qualifier Q × Nat × E.El (E.valTy T))) (hi : InterruptedExtend T its m m') :
    m'.Holds (b + Bag.ofItems T its) := by
  obtain ⟨l, rfl, rfl, hst⟩ := h
  obtain ⟨e, he⟩ := hi
  rw [BRep.entries] at he
  split at he
  · rename_i hc
    cases he
    refine ⟨l ++ BRep.items T its, by rw [← Multiset.coe_add]; rfl, ?_, ?_⟩
    · rw [List.map_append]; rfl
    · intro x hx
      rcases List.mem_append.1 hx with hx | hx
      · exact hst x hx
      · obtain ⟨t, ht, rfl⟩ := List.mem_map.1 hx
        rcases hc with rfl | hc
        · simp at ht
        · exact hc
  · cases he

/-- **C105** `extend` repairs: on a map in any order, once an `extend` returns (of no items, say), the map shows all that
it holds, and every later history of calls behaves as on a multimap with these contents. -/
theorem C105_repair (m : StatMap E Q) (b : Bag E Q) (h : m.Holds b) (T : E.S)
    (items : List (Qualifier Q × Nat × E.El (E.valTy T))) (os : List (MultiOp E Q)) :
    match StatMap.multiRun A m (.extend T items :: os) with
    | .ok m' => ∃ b', Bag.Run (b + Bag.ofItems T items) os b' ∧ b'.Seen A m'
    | .error e => (items ≠ [] ∧ ¬ Storable (E.layout (E.valTy T)) ∧ e = .panic) ∨
        ∃ pre o post b', os = pre ++ o :: post ∧ Bag.Run (b + Bag.ofItems T items) pre b' ∧ b'.MultiFails e o := by
  obtain ⟨l, rfl, rfl, hst⟩ := h
  have := StatMap.Holds.extend_brep (A := A) hst T items
  have hu : StatMap.multiRun A (l.map Keyed.entry) (.extend T items :: os) =
      (StatMap.extend A (l.map Keyed.entry) T items >>= fun m' => StatMap.multiRun A m' os) := rfl
  change match StatMap.multiRun A (l.map Keyed.entry) (.extend T items :: os) with
    | .ok m' => ∃ b', Bag.Run (↑l + Bag.ofItems T items) os b' ∧ b'.Seen A m'
    | .error e => (items ≠ [] ∧ ¬ Storable (E.layout (E.valTy T)) ∧ e = .panic) ∨
        ∃ pre o post b', os = pre ++ o :: post ∧ Bag.Run (↑l + Bag.ofItems T items) pre b' ∧ b'.MultiFails e o
  rw [hu]
  cases hr : StatMap.extend A (l.map Keyed.entry) T items with
  | error e => rw [hr] at this; exact .inl this
  | ok m' =>
    rw [hr] at this
    obtain ⟨l', h1, h2⟩ := this
    have hrun := h1.run os
    rw [Res.bind_ok]
    cases hh : StatMap.multiRun A m' os with
    | error e =>
      rw [hh] at hrun
      rw [h2] at hrun
      exact .inr hrun
    | ok m'' =>
      rw [hh] at hrun
      obtain ⟨l'', h3, h4⟩ := hrun
      rw [h2] at h4
      exact ⟨_, h4, h3.seen⟩

/-- a vector of well-typed entries holds some values -/
theorem StatMap.Holds.of_typed {m : StatMap E Q}
    (h : ∀ e ∈ m, ∃ x : e.stat.Val, e.buf = .val e.stat.ty x ∧ Storable (E.layout e.stat.ty)) : ∃ b, m.Holds b := by
  induction m with
  | nil => exact ⟨0, [], rfl, rfl, by simp⟩
  | cons e m ih =>
    obtain ⟨_, l, -, rfl, hl⟩ := ih fun e he => h e (List.mem_cons_of_mem _ he)
    obtain ⟨x, hx, hs⟩ := h e List.mem_cons_self
    refine ⟨_, (⟨⟨e.stat, e.qual⟩, x⟩ : Keyed E Q) :: l, rfl, ?_, fun y hy => ?_⟩
    · rw [List.map_cons, ← hx]
    rcases List.mem_cons.1 hy with rfl | hy
    · exact hs
    · exact hl y hy

/-- **C105** Every map loaded from whatever data, in whatever format, holds values of the right types. -/
theorem C105_loaded (X : Serde E Q) (sc : DeScope E) (d : Data) (m : StatMap E Q)
    (h : X.deMap sc d = .ok (some m)) : ∃ b, m.Holds b :=
  StatMap.Holds.of_typed (C14_loaded_typed X sc d m h)

/-- a key is looked up among the entries of its stat -/
theorem Vec.lookup_filter {B : Type} {m : Vec E Q B} {k : Key E Q} :
    Vec.lookup m k = Vec.lookup (m.filter (fun e => decide (e.stat = k.stat))) k := by
  unfold Vec.lookup
  rw [List.find?_filter]
  congr 2
  funext e
  by_cases he : e.key = k
  · subst he; simp [Entry.key]
  · simp [he]

/-- two orders of the same entries agree on the entries of each stat -/
theorem Vec.filter_stat_eq {B : Type} {A A' : Addr E} {m m' : Vec E Q B} (h' : Vec.Sorted A' m') (h : Vec.Sorted A m)
    (hp : m'.Perm m) (s : StatInst E) :
    m'.filter (fun e => decide (e.stat = s)) = m.filter (fun e => decide (e.stat = s)) := by
  have hk : ∀ (A : Addr E) (n : Vec E Q B), Vec.Sorted A n →
      (n.filter (fun e => decide (e.stat = s))).Pairwise (fun a b => a.qual.cmp b.qual = .lt) := by
    intro A n hn
    have := (List.pairwise_map.1 hn).filter (fun e => decide (e.stat = s))
    refine this.imp_of_mem ?_
    intro a b ha hb hab
    have ha := of_decide_eq_true (List.mem_filter.1 ha).2
    have hb := of_decide_eq_true (List.mem_filter.1 hb).2
    simpa [Vec.KLt, Key.cmp, Entry.key, StatInst.cmp, ha, hb] using hab
  refine (hp.filter _).eq_of_pairwise ?_ (hk A' m' h') (hk A m h)
  intro a b _ _ hab hba
  have := Std.TransCmp.lt_trans (cmp := Qualifier.cmp) hab hba
  rw [Std.ReflCmp.compare_self (cmp := Qualifier.cmp)] at this
  cases this

/-- **C105** A map saved by one process and loaded by another, in which stats are ordered otherwise (C15), is repaired by
`extend`ing it by nothing: then all answers are those of the map that was saved. -/
theorem C105_other_process [BitFlags Q] [FlagSet Q] (A A' : Addr E) (X : Serde E Q) (hX : X.Lawful)
    (h : List (MapOp E Q)) (m : StatMap E Q) (hm : StatMap.run A h = .ok m) (reg : Registry E)
    (hsup : ∀ e ∈ m, X.supported e.stat.vt = true)
    (hreg : ∀ e ∈ m, ∃ n, e.stat.name = .ok n ∧ reg n = some e.stat) (T : E.S) :
    ∃ d m' m'', X.serMap m = .ok d ∧ X.deMap (.registry reg) d = .ok (some m') ∧
      StatMap.extend A' m' T [] = .ok m'' ∧
      (∀ q s, StatMap.get A' m'' q s = StatMap.get A m q s) ∧
      (∀ s, StatMap.iter A' m'' s = StatMap.iter A m s) ∧
      (∀ query s, StatMap.queryStat A' m'' query s = StatMap.queryStat A m query s) ∧
      (∀ query s, StatMap.evalStat A' m'' query s = StatMap.evalStat A m query s) := by
  obtain ⟨d, h1, h2⟩ := C13_roundtrip A X hX h m hm reg hsup hreg
  obtain ⟨a, _, r⟩ := reachRep A hm
  have hp : (Vec.sorted A' m).Perm m := List.mergeSort_perm _ _
  have hs : Vec.Sorted A' (Vec.sorted A' m) := Vec.sorted_mergeSort A' r.sorted.nodup
  have hf : ∀ s, (Vec.sorted A' m).filter (fun e => decide (e.stat = s)) = m.filter (fun e => decide (e.stat = s)) :=
    Vec.filter_stat_eq hs r.sorted hp
  have r' : Rep A' (Vec.sorted A' m) a := by
    refine ⟨hs, fun k => ?_, r.storable⟩
    rw [← r.holds k, Vec.lookup_filter, hf, ← Vec.lookup_filter]
  have hq : ∀ query s, StatMap.queryStat A' (Vec.sorted A' m) query s = StatMap.queryStat A m query s := by
    intro query s
    unfold StatMap.queryStat StatMap.streamStat
    simp only [Vec.slice_eq r.sorted, Vec.slice_eq hs, hf]
  refine ⟨d, m, Vec.sorted A' m, h1, h2, ?_, fun q s => by rw [r.get, r'.get], fun s => ?_, hq, fun query s => ?_⟩
  · unfold StatMap.extend StatMap.entries
    simp
  · unfold StatMap.iter
    simp only [Vec.slice_eq r.sorted, Vec.slice_eq hs, hf]
  · unfold StatMap.evalStat
    rw [hq]

/-- the map of C15_refuted_other_addresses, which the other process misreads, is repaired -/
example :
    let reg : Registry demo := fun n =>
      if n = "int0" then some (demoInt 0) else if n = "flag1" then some (demoFlag 1) else none
    ∃ (m m'' : StatMap demo (BitVec 8)) (d : Data), demoSerde.deMap (.registry reg) d = .ok (some m) ∧
      StatMap.evalStat demoAddr' m QualifierQuery.none (demoFlag 1) = .error .ub ∧
      StatMap.extend demoAddr' m true [] = .ok m'' ∧
      StatMap.evalStat demoAddr' m'' QualifierQuery.none (demoFlag 1) = .ok 5#8 := by
  intro reg
  obtain ⟨d, m', m'', h1, h2, h3, -, -, -, h4⟩ := C105_other_process (Q := BitVec 8) demoAddr demoAddr' demoSerde
    demoSerde_lawful [.insert ⟨0, 0⟩ (demoFlag 1) ⟨0, 5⟩, .insert ⟨0, 0⟩ (demoInt 0) ⟨6, 0, 9, 1⟩] _ rfl reg
    (by intro e he; rcases List.mem_cons.1 he with rfl | he
        · rfl
        · rcases List.mem_cons.1 he with rfl | he
          · rfl
          · cases he)
    (by intro e he; rcases List.mem_cons.1 he with rfl | he
        · exact ⟨_, rfl, rfl⟩
        · rcases List.mem_cons.1 he with rfl | he
          · exact ⟨_, rfl, rfl⟩
          · cases he) true
  have h2' := h2
  cases h1
  cases h2
  exact ⟨_, m'', _, h2', rfl, h3, (h4 _ _).trans rfl⟩

/-- **C105** Every map that such calls and caught panics lead to holds keyed values of the right types, so that
C105_contents and C105_repair apply to it. -/
theorem C105_reached (m : StatMap E Q) (h : ReachedUnordered A m) : ∃ b, m.Holds b := by
  induction h with
  | new => exact ⟨0, [], rfl, rfl, by simp⟩
  | load X sc d m h => exact C105_loaded X sc d m h
  | ret m m' o ho _ hs ih =>
    obtain ⟨b, hb⟩ := ih
    have := C105_contents (A := A) m b hb o ho
    rw [hs] at this
    exact ⟨_, this.choose_spec.1⟩
  | extend m m' _ T its hi ih =>
    obtain ⟨b, hb⟩ := ih
    exact ⟨_, C105_interrupted m m' b hb T its hi⟩
  | write m q s v v' _ hg ih =>
    obtain ⟨b, hb⟩ := ih
    have := C105_contents (A := A) m b hb (.one (.getMut q s fun _ => .ok v')) trivial
    have he : StatMap.multiStep A m (.one (.getMut q s fun _ => .ok v')) = .ok (m.update A q s (.val s.ty v')) := by
      change StatMap.getMut A m q s _ = _
      unfold StatMap.getMut
      rw [hg]; rfl
    rw [he] at this
    exact ⟨_, this.choose_spec.1⟩

/-- a flag stat behind which an interrupted `extend` has put an integer stat (C63_refuted_extend) -/
def unordered : StatMap demo (BitVec 8) :=
  [⟨demoInt 0, ⟨0, 0⟩, .val true ⟨6, 0, 9, 1⟩⟩, ⟨demoFlag 0, ⟨0, 0⟩, .val false ⟨0, 5⟩⟩,
    ⟨demoInt 1, ⟨0, 0⟩, .val true ⟨3, 0, 9, 1⟩⟩]

/-- C105 is not empty: `unordered` is such a map -/
theorem unordered_holds : ∃ b, StatMap.Holds unordered b :=
  ⟨_, [⟨⟨demoInt 0, ⟨0, 0⟩⟩, ⟨6, 0, 9, 1⟩⟩, ⟨⟨demoFlag 0, ⟨0, 0⟩⟩, ⟨0, 5⟩⟩, ⟨⟨demoInt 1, ⟨0, 0⟩⟩, ⟨3, 0, 9, 1⟩⟩],
    rfl, rfl, by
      intro x hx
      simp only [List.mem_cons, List.not_mem_nil, or_false] at hx
      rcases hx with rfl | rfl | rfl <;> decide⟩

example : ReachedUnordered demoAddr unordered :=
  .extend _ _ (.ret _ _ (.one (.insert ⟨0, 0⟩ (demoInt 0) ⟨6, 0, 9, 1⟩)) trivial
    (.ret _ _ (.one (.insert ⟨0, 0⟩ (demoFlag 0) ⟨0, 5⟩)) trivial .new rfl) rfl)
    (E := demo) true [(⟨0, 0⟩, (1 : Nat), ⟨3, 0, 9, 1⟩)] (.mk _ _ rfl)

/-- **C105** Without the repair values are missed: `get` does not find an entry that is there, and `insert` puts a second
one beside it.  After extending by nothing `get` finds it. -/
theorem C105_missed :
    StatMap.get demoAddr unordered ⟨0, 0⟩ (demoInt 1) = .ok none ∧
    (StatMap.insert demoAddr unordered ⟨0, 0⟩ (demoInt 1) ⟨4, 0, 9, 1⟩).map
      (fun m => (m.filter fun e => decide (e.stat = demoInt 1)).length) = .ok 2 ∧
    (StatMap.extend demoAddr unordered true [] >>= fun m => StatMap.get demoAddr m ⟨0, 0⟩ (demoInt 1)) =
      .ok (some ⟨3, 0, 9, 1⟩) := by
  refine ⟨rfl, rfl, ?_⟩
  have hs : Vec.sorted demoAddr unordered = [⟨demoInt 0, ⟨0, 0⟩, .val true ⟨6, 0, 9, 1⟩⟩,
      ⟨demoInt 1, ⟨0, 0⟩, .val true ⟨3, 0, 9, 1⟩⟩, ⟨demoFlag 0, ⟨0, 0⟩, .val false ⟨0, 5⟩⟩] := by
    have h3 : ∀ (le : Entry demo (BitVec 8) (Buf demo) → Entry demo (BitVec 8) (Buf demo) → Bool) a b c,
        le a b = true → le a c = true → le b c = false → [a, b, c].mergeSort le = [a, c, b] := by
      intro le a b c h1 h2 h3
      simp [List.mergeSort, List.MergeSort.Internal.splitInTwo, h1, h2, h3]
    exact h3 _ _ _ _ rfl rfl rfl
  exact (congrArg (fun m => StatMap.get demoAddr m ⟨0, 0⟩ (demoInt 1)) hs).trans rfl

end BSQ
