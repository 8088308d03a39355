import Verif.Proofs.WildOrd
import Verif.Props.StatMap
/-!
# C96: qualifier types with a wrong `Ord`
-/
namespace BSQ
variable {E : Env} {Q : Type} (A : Addr E)

theorem GRep.run {A : Addr E} {m : StatMap E Q} {l : List (Keyed E Q)} (h : GRep A m l)
    (os : List (Ord Q × MapOp E Q)) :
    match StatMap.ordRun A m os with
    | .ok m' => ∃ l', GRep A m' l' ∧ Bag.LooseRun (↑l) (os.map (·.2)) (↑l')
    | .error e => ∃ pre o post b, os.map (·.2) = pre ++ o :: post ∧ Bag.LooseRun (↑l) pre b ∧ Bag.LooseFails b e o := by
  induction os generalizing m l with
  | nil => exact ⟨l, h, .nil _⟩
  | cons o os ih =>
    obtain ⟨i, o⟩ := o
    have hs := h.step i o
    unfold StatMap.ordRun
    cases hr : StatMap.step A m o with
    | error e => rw [hr] at hs; exact ⟨[], o, os.map (·.2), _, rfl, .nil _, hs⟩
    | ok m' =>
      rw [hr] at hs
      obtain ⟨l', h1, h2⟩ := hs
      have := ih h1
      show match StatMap.ordRun A m' os with
        | .ok m' => ∃ l', GRep A m' l' ∧ Bag.LooseRun (↑l) (o :: os.map (·.2)) (↑l')
        | .error e => ∃ pre o' post b, o :: os.map (·.2) = pre ++ o' :: post ∧ Bag.LooseRun (↑l) pre b ∧
            Bag.LooseFails b e o'
      cases hh : StatMap.ordRun A m' os with
      | ok m'' =>
        rw [hh] at this
        obtain ⟨l'', h3, h4⟩ := this
        exact ⟨l'', h3, .cons h2 h4⟩
      | error e =>
        rw [hh] at this
        obtain ⟨pre, o', post, b, he, h4, h5⟩ := this
        exact ⟨o :: pre, o', post, b, by rw [he]; rfl, .cons h2 h4, h5⟩

/-- **C96** Whatever comparisons of qualifiers answer, and even if they answer differently in each call: the map is a
bag of keyed values, each call changes at most one value of its own stat (or, for calls about all values of a stat or
of the map, exactly those), and the reading methods only show values of the stat they are asked for.  A call that does
not return fails because the caller's own code fails or because values of the stat cannot be stored. -/
theorem C96_any_ord (h : List (Ord Q × MapOp E Q)) :
    match StatMap.ordRun A [] h with
    | .ok m => ∃ b, Bag.LooseRun 0 (h.map (·.2)) b ∧ b.LooseSeen A m
    | .error e => ∃ pre o post b, h.map (·.2) = pre ++ o :: post ∧ Bag.LooseRun 0 pre b ∧ Bag.LooseFails b e o := by
  have := (GRep.nil (E := E) (Q := Q) (A := A)).run h
  cases hr : StatMap.ordRun A [] h with
  | error e => rw [hr] at this; exact this
  | ok m =>
    rw [hr] at this
    obtain ⟨l, h1, h2⟩ := this
    exact ⟨_, h2, h1.seen⟩

/-- **C96** so a wrong `Ord` never leads to undefined behaviour -/
theorem C96_no_ub (hE : E.NoUb) (h : List (Ord Q × MapOp E Q)) (hh : ∀ x ∈ h, x.2.NoUb) :
    StatMap.ordRun A [] h ≠ .error .ub := by
  intro he
  have := C96_any_ord A h
  rw [he] at this
  obtain ⟨pre, o, post, b, heq, -, hf⟩ := this
  have ho : o.NoUb := by
    have : o ∈ h.map (·.2) := by rw [heq]; simp
    obtain ⟨x, hx, rfl⟩ := List.mem_map.1 this
    exact hh x hx
  cases o with
  | insert q s v => exact absurd hf.2 (by simp)
  | insertBase q s v => exact absurd hf.2 (by simp)
  | modify q s o =>
    rcases hf with ⟨_, v, -, h1⟩ | h1 | ⟨-, -, h1⟩
    · exact hE.write _ _ _ h1
    · exact hE.write _ _ _ h1
    · cases h1
  | modifyWith q s f =>
    rcases hf with ⟨_, v, -, h1⟩ | h1 | ⟨-, -, h1⟩
    · exact ho _ h1
    · exact ho _ h1
    · cases h1
  | getMut q s f =>
    obtain ⟨_, v, -, h1⟩ := hf
    exact ho _ h1
  | iterMut => exact hf
  | remove => exact hf
  | removeAll => exact hf
  | clear => exact hf

/-- **C96** `remove` returns the value that it takes out, which is one of the stat -/
theorem C96_remove (h : List (Ord Q × MapOp E Q)) (m : StatMap E Q) (hm : StatMap.ordRun A [] h = .ok m) (_ : Ord Q)
    (q : Qualifier Q) (s : StatInst E) :
    ∃ b m' r, Bag.LooseRun 0 (h.map (·.2)) b ∧ b.LooseSeen A m ∧ StatMap.remove A m q s = .ok (m', r) ∧
      match r with
      | none => m' = m
      | some v => ∃ q', ∃ b' : Bag E Q, b = (⟨⟨s, q'⟩, v⟩ : Keyed E Q) ::ₘ b' ∧ b'.LooseSeen A m' := by
  rename_i i
  have := (GRep.nil (E := E) (Q := Q) (A := A)).run h
  rw [hm] at this
  obtain ⟨l, r, hr⟩ := this
  unfold StatMap.remove
  rcases r.cases_key i q s with ⟨pre, q', u, post, rfl, -, hp, hs, -⟩ | ⟨pre, post, rfl, -, hp, -⟩
  · rw [hp]
    simp only [StatMap.readAs, Buf.read_val hs, Res.bind_ok]
    exact ⟨_, _, _, hr, r.seen, rfl, _, _, GRep.perm_swap, r.removed.seen⟩
  · rw [hp]
    exact ⟨_, _, _, hr, r.seen, rfl, rfl⟩

theorem perm_map_inv {α β : Type} {f : α → β} {l : List α} {m : List β} (h : m.Perm (l.map f)) :
    ∃ k : List α, k.Perm l ∧ m = k.map f := by
  generalize hl : l.map f = r at h
  induction h generalizing l with
  | nil => exact ⟨[], by rw [List.map_eq_nil_iff.1 hl], rfl⟩
  | cons x _ ih =>
    obtain ⟨a, l', rfl, rfl, h3⟩ := List.map_eq_cons_iff.1 hl
    obtain ⟨k, h4, rfl⟩ := ih h3
    exact ⟨a :: k, h4.cons a, rfl⟩
  | swap x y r =>
    obtain ⟨a, l', rfl, rfl, h3⟩ := List.map_eq_cons_iff.1 hl
    obtain ⟨b, l'', rfl, rfl, rfl⟩ := List.map_eq_cons_iff.1 h3
    exact ⟨b :: a :: l'', List.Perm.swap _ _ _, rfl⟩
  | trans _ _ ih1 ih2 =>
    obtain ⟨k, h4, rfl⟩ := ih2 hl
    obtain ⟨k', h5, rfl⟩ := ih1 rfl
    exact ⟨k', h5.trans h4, rfl⟩

theorem joinEntries_any [QualifierFlag Q] (T : E.S) (hs : Storable (E.layout (E.valTy T))) (query : QualifierQuery Q)
    (i : Nat) (L : List (Qualifier Q × E.El (E.valTy T))) (v : E.El (E.valTy T)) :
    StatMap.joinEntries T query
      (L.map (fun p => (⟨⟨T, i⟩, p.1, .val (E.valTy T) p.2⟩ : Entry E Q (Buf E)))) (.val (E.valTy T) v) =
    (joinList (E.sv (E.valTy T)) v ((L.filter (fun p => p.1.qualifiesAs query)).map (·.2)) >>= fun z =>
      .ok (.val (E.valTy T) z)) := by
  induction L generalizing v with
  | nil => rfl
  | cons p L ih =>
    simp only [List.map_cons, StatMap.joinEntries]
    by_cases hq : p.1.qualifiesAs query = true
    · rw [if_pos hq, List.filter_cons_of_pos (by simpa using hq), vtJoin_val hs]
      simp only [List.map_cons, joinList]
      cases (E.sv (E.valTy T)).join v p.2 with
      | error e => rfl
      | ok z => exact ih z
    · rw [if_neg hq, List.filter_cons_of_neg (by simpa using hq)]
      exact ih v

/-- **C96** A query joins into the default exactly the values of the stat whose qualifiers say that they match, in
the order of the vector, also if the methods of `QualifierFlag` are as wrong as `Ord`. -/
theorem C96_query [QualifierFlag Q] (h : List (Ord Q × MapOp E Q)) (m : StatMap E Q)
    (hm : StatMap.ordRun A [] h = .ok m) (_ : Ord Q) (query : QualifierQuery Q) (s : StatInst E)
    (hs : Storable (E.layout s.ty)) :
    ∃ (b : Bag E Q) (L : List (Qualifier Q × s.Val)), Bag.LooseRun 0 (h.map (·.2)) b ∧
      (↑(L.map fun p => (⟨⟨s, p.1⟩, p.2⟩ : Keyed E Q)) : Bag E Q) = b.filter (fun x => x.1.stat = s) ∧
      StatMap.queryStat A m query s =
        joinList s.sv s.sv.default ((L.filter (fun p => p.1.qualifiesAs query)).map (·.2)) := by
  have := (GRep.nil (E := E) (Q := Q) (A := A)).run h
  rw [hm] at this
  obtain ⟨l, r, hr⟩ := this
  obtain ⟨L, h1, h2, h4⟩ := r.statList s
  refine ⟨_, L, hr, by rw [h2, Multiset.filter_coe], ?_⟩
  unfold StatMap.queryStat Pair.newDefault Pair.new StatMap.streamStat
  rw [Buf.from_eq, if_pos hs]
  simp only [Res.bind_ok, Vec.slice_le r.stat_le, h1]
  have := joinEntries_any s.vt hs query s.index L s.sv.default
  rw [this]
  cases joinList s.sv s.sv.default ((L.filter (fun p => p.1.qualifiesAs query)).map (·.2)) with
  | error e => rfl
  | ok z => exact Buf.read_val hs z

/-- an `Ord` that claims that everything is equal -/
abbrev allEq : Ord (BitVec 8) := ⟨fun _ _ => .eq⟩
/-- an `Ord` that claims that everything is smaller -/
abbrev allLt : Ord (BitVec 8) := ⟨fun _ _ => .lt⟩

/-- three insertions of two keys of one stat and one of another; the answers change from call to call -/
def wildHist : List (Ord (BitVec 8) × MapOp demo (BitVec 8)) :=
  [(allLt, .insert ⟨1, 0⟩ (demoInt 0) ⟨3, 0, 100, 1⟩), (allLt, .insert ⟨1, 0⟩ (demoInt 0) ⟨4, 0, 100, 1⟩),
   (allEq, .insert ⟨2, 0⟩ (demoInt 0) ⟨5, 0, 100, 1⟩), (allEq, .insert ⟨2, 0⟩ (demoFlag 0) ⟨7, 0⟩)]

/-- What the looseness is about: with a wrong `Ord`, a key may be stored twice and one key may be taken for another.
Here the first key is there twice, and the insertion under the second has replaced one of them. -/
example : StatMap.ordRun demoAddr [] wildHist = .ok
    [⟨demoInt 0, ⟨1, 0⟩, .val true ⟨3, 0, 100, 1⟩⟩, ⟨demoInt 0, ⟨1, 0⟩, .val true ⟨5, 0, 100, 1⟩⟩,
     ⟨demoFlag 0, ⟨2, 0⟩, .val false ⟨7, 0⟩⟩] := by rfl

/-- **C96** `extend` (and `from_iter`) sort, and the standard library does not say in which order a wrong `Ord` leaves
the elements.  If that order keeps the entries of each stat together and in the order of stats, all is well: the map
holds what was there and the new items. -/
theorem C96_extend (h : List (Ord Q × MapOp E Q)) (m : StatMap E Q) (hm : StatMap.ordRun A [] h = .ok m) (T : E.S)
    (hs : Storable (E.layout (E.valTy T))) (items : List (Qualifier Q × Nat × E.El (E.valTy T)))
    (l m' : StatMap E Q) (hl : StatMap.entries T items = .ok l) (hp : m'.Perm (m ++ l))
    (hg : m'.Pairwise fun a b => a.stat.cmp A b.stat ≠ .gt) :
    ∃ b, Bag.LooseRun 0 (h.map (·.2)) b ∧ b.LooseSeen A m ∧ (b + Bag.ofItems T items).LooseSeen A m' := by
  have := (GRep.nil (E := E) (Q := Q) (A := A)).run h
  rw [hm] at this
  obtain ⟨k, r, hr⟩ := this
  refine ⟨_, hr, r.seen, ?_⟩
  have hl' : l = (BRep.items T items).map Keyed.entry := by
    rw [BRep.entries, if_pos (.inr hs)] at hl
    exact (Except.ok.inj hl).symm
  have hp' : m'.Perm ((k ++ BRep.items T items).map Keyed.entry) := by
    rw [List.map_append, ← r.eq, ← hl']; exact hp
  obtain ⟨k', h1, h2⟩ := perm_map_inv hp'
  have hg' : GRep A m' k' := by
    refine ⟨h2, ?_, fun x hx => ?_⟩
    · rw [h2, List.pairwise_map] at hg; exact hg
    · rcases List.mem_append.1 (h1.mem_iff.1 hx) with hx | hx
      · exact r.storable x hx
      · obtain ⟨t, ht, rfl⟩ := List.mem_map.1 hx
        exact hs
  have := hg'.seen
  rwa [Multiset.coe_eq_coe.2 h1, ← Multiset.coe_add] at this

/-- **C96** Otherwise it may not be: a flag stat is stored and two integer stats are added.  If sorting leaves the
entries as they are, then iterating over the integer stat reads the flags as an integer: undefined behaviour.  So with
a wrong `Ord`, `extend` is only as safe as the sorting algorithm of the standard library happens to be. -/
theorem C96_extend_unspecified :
    ∃ (m m' l : StatMap demo (BitVec 8)),
      StatMap.ordRun demoAddr [] [(allEq, .insert ⟨0, 0⟩ (demoFlag 0) ⟨7, 0⟩)] = .ok m ∧
      StatMap.entries (E := demo) true [(⟨0, 0⟩, 0, ⟨3, 0, 100, 1⟩), (⟨0, 0⟩, 0, ⟨4, 0, 100, 1⟩)] = .ok l ∧
      m'.Perm (m ++ l) ∧ (letI := allEq; StatMap.iter demoAddr m' (demoInt 0)) = .error .ub :=
  ⟨_, _, _, rfl, rfl, List.Perm.refl _, rfl⟩

end BSQ
