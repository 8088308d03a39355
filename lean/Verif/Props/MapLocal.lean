import Verif.Spec.MapLocal
import Verif.Props.MapQuery
/-!
# C89: what a change of one entry of one map does to queries
-/
namespace BSQ
set_option linter.unusedSectionVars false
variable {E : Env} {Q Ent : Type} [BitFlags Q] [FlagSet Q] [Ord Q] [Std.TransOrd Q] [Std.LawfulEqOrd Q]
  {A : Addr E} {J J' : Joined E Q Ent} {own items own' items' : List (MapComp (Q := Q) A Ent)}

theorem qualBefore_asymm {a b : Qualifier Q} (h : KeyBefore.QualBefore a b) : ¬ KeyBefore.QualBefore b a := by
  unfold KeyBefore.QualBefore at *
  rcases h with h | ⟨h, h'⟩
  · rintro (h2 | ⟨h2, -⟩)
    · rw [Std.OrientedCmp.eq_swap (cmp := compare), h2] at h; cases h
    · rw [h2, Std.ReflCmp.compare_self (cmp := compare)] at h; cases h
  · rintro (h2 | ⟨-, h2⟩)
    · rw [h, Std.ReflCmp.compare_self (cmp := compare)] at h2; cases h2
    · rw [Std.OrientedCmp.eq_swap (cmp := compare), h2] at h'; cases h'

theorem qualBefore_irrefl (a : Qualifier Q) : ¬ KeyBefore.QualBefore a a := fun h => qualBefore_asymm h h

/-- listings in the order of qualifiers are unique -/
theorem sorted_unique {X : Type} {L L' : List (Qualifier Q × X)}
    (h : (L.map (·.1)).Pairwise KeyBefore.QualBefore) (h' : (L'.map (·.1)).Pairwise KeyBefore.QualBefore)
    (hm : ∀ x, x ∈ L ↔ x ∈ L') : L = L' := by
  rw [List.pairwise_map] at h h'
  refine List.Perm.eq_of_pairwise ?_ h h' ?_
  · intro a b _ _ h1 h2
    exact absurd h2 (qualBefore_asymm h1)
  · refine (List.perm_ext_iff_of_nodup ?_ ?_).2 hm
    · exact h.imp fun hx he => by rw [he] at hx; exact qualBefore_irrefl _ hx
    · exact h'.imp fun hx he => by rw [he] at hx; exact qualBefore_irrefl _ hx

theorem MatchesAt.found {q : QualifierQuery Q} {s : StatInst E} {x : MapComp (Q := Q) A Ent × Ent}
    {L : List (Qualifier Q × s.Val)} (h : MatchesAt q s x L) (k : Qualifier Q) (v : s.Val) :
    (k, v) ∈ L ↔ foundAt x ⟨s, k⟩ = some v ∧ FlagSpec.Matches k q := by
  rw [h.mem, foundAt]
  by_cases hm : (x.1.map x.2).isSome <;> simp [hm]

theorem listed_eq {A' : Addr E} {Ent' : Type} {q : QualifierQuery Q} {s : StatInst E}
    {l : List (MapComp (Q := Q) A Ent × Ent)} {l' : List (MapComp (Q := Q) A' Ent' × Ent')}
    {Ls Ls' : List (List (Qualifier Q × s.Val))} (hl : List.Forall₂ (SameAt q s) l l')
    (h : List.Forall₂ (MatchesAt q s) l Ls) (h' : List.Forall₂ (MatchesAt q s) l' Ls')
    (ho : ∀ L ∈ Ls, (L.map (·.1)).Pairwise KeyBefore.QualBefore)
    (ho' : ∀ L ∈ Ls', (L.map (·.1)).Pairwise KeyBefore.QualBefore) : Ls = Ls' := by
  induction hl generalizing Ls Ls' with
  | nil => cases h; cases h'; rfl
  | cons hx _ ih =>
    cases h with
    | cons hy h =>
      cases h' with
      | cons hy' h' =>
        rw [ih h h' (fun L hL => ho L (by simp [hL])) (fun L hL => ho' L (by simp [hL]))]
        congr 1
        refine sorted_unique (ho _ (by simp)) (ho' _ (by simp)) fun ⟨k, v⟩ => ?_
        rw [hy.found, hy'.found]
        refine ⟨fun hz => ⟨?_, hz.2⟩, fun hz => ⟨?_, hz.2⟩⟩
        · rw [← hx k hz.2]; exact hz.1
        · rw [hx k hz.2]; exact hz.1

/-- C89: a query depends on nothing but the start value and what the maps of the entity and its children store for
the stat under matching qualifiers.  Neither the histories of the maps, nor other entries, nor other entities, nor
the recursion depth matter, whatever the value type is and whether or not the query panics.  The two queries may be
made in different processes. -/
theorem C89_depends {A' : Addr E} {Ent' : Type} {J' : Joined E Q Ent'}
    {own' items' : List (MapComp (Q := Q) A' Ent')} (h : OnlyMaps J own items) (h' : OnlyMaps J' own' items')
    (e : Ent) (e' : Ent')
    (q : QualifierQuery Q) (s : StatInst E) (hs : Storable (E.layout s.ty))
    (he : J.world.isStat e = true) (he' : J'.world.isStat e' = true) (v : s.Val)
    (hv : J.world.startValue A s = .ok (.val s.ty v)) (hv' : J'.world.startValue A' s = .ok (.val s.ty v))
    (hl : List.Forall₂ (SameAt q s) (mapPlaces J own items e) (mapPlaces J' own' items' e')) (n n' : Nat) :
    J.answer A (n + 1) (.stat e q s) = J'.answer A' (n' + 1) (.stat e' q s) := by
  obtain ⟨Ls, h1, h2, h3⟩ := C86_exact h e q s hs he v hv
  obtain ⟨Ls', h1', h2', h3'⟩ := C86_exact h' e' q s hs he' v hv'
  rw [h3 n, h3' n', listed_eq hl h1 h1' h2 h2']

theorem PMap.step_untouched {Q : Type} [DecidableEq Q] {a a' : PMap E Q} {o : MapOp E Q} {k : Key E Q} (ho : ¬ o.Touches k)
    (h : a.step o = .ok a') : a' k = a k := by
  have hset : ∀ (j : Key E Q) (v : j.Val), k ≠ j → a.set j v k = a k := fun j v hj => by
    rw [PMap.set, dif_neg hj]
  have hstore : ∀ (j : Key E Q) (v : j.Val) b, k ≠ j → a.store j v = .ok b → b k = a k := fun j v b hj hb => by
    unfold PMap.store at hb
    split at hb
    · cases hb; exact hset j v hj
    · cases hb
  cases o with
  | insert q s v => exact hstore _ _ _ ho h
  | insertBase q s b => exact hstore _ _ _ ho h
  | modify q s f =>
    simp only [PMap.step] at h
    cases hx : a ⟨s, q⟩ with
    | some v =>
      rw [hx] at h
      obtain ⟨w, -, h⟩ := Res.bind_eq_ok.1 h
      cases h; exact hset _ _ ho
    | none =>
      rw [hx] at h
      obtain ⟨w, -, h⟩ := Res.bind_eq_ok.1 h
      exact hstore _ _ _ ho h
  | modifyWith q s f =>
    simp only [PMap.step] at h
    cases hx : a ⟨s, q⟩ with
    | some v =>
      rw [hx] at h
      obtain ⟨w, -, h⟩ := Res.bind_eq_ok.1 h
      cases h; exact hset _ _ ho
    | none =>
      rw [hx] at h
      obtain ⟨w, -, h⟩ := Res.bind_eq_ok.1 h
      exact hstore _ _ _ ho h
  | getMut q s f =>
    simp only [PMap.step] at h
    cases hx : a ⟨s, q⟩ with
    | some v =>
      rw [hx] at h
      obtain ⟨w, -, h⟩ := Res.bind_eq_ok.1 h
      cases h; exact hset _ _ ho
    | none => rw [hx] at h; cases h; rfl
  | iterMut s f =>
    cases h
    obtain ⟨t, q⟩ := k
    have ho : ¬ t = s := ho
    rw [PMap.mapStat, dif_neg ho]
  | remove q s =>
    cases h
    exact if_neg ho
  | removeAll s =>
    cases h
    exact if_neg ho
  | clear => exact absurd trivial ho

theorem Rep.unique {m : StatMap E Q} {a b : PMap E Q} (h : Rep A m a) (h' : Rep A m b) : a = b := by
  funext k
  have := (h.holds k).symm.trans (h'.holds k)
  cases ha : a k with
  | none =>
    cases hb : b k with
    | none => rfl
    | some y => rw [ha, hb] at this; cases this
  | some x =>
    cases hb : b k with
    | none => rw [ha, hb] at this; cases this
    | some y =>
      rw [ha, hb] at this
      injection this with this
      injection this with _ this
      rw [this]

theorem MapComp.rep (c : MapComp (Q := Q) A Ent) {e : Ent} {m : StatMap E Q} (h : c.map e = some m) :
    Rep A m (c.stored e) := by
  obtain ⟨ops, h1, h2⟩ := c.reached e m h
  obtain ⟨a, h3, r⟩ := reachRep A h1
  cases h2.symm.trans h3
  exact r

/-- what a change of a map does to what is found -/
theorem Edited.found {o : MapOp E Q} {e₀ : Ent} {c c' : MapComp (Q := Q) A Ent} (h : Edited o e₀ c c') :
    (∀ e, e ≠ e₀ → ∀ k, foundAt (c', e) k = foundAt (c, e) k) ∧
    ∃ a a' : PMap E Q, a.step o = .ok a' ∧ (∀ k, foundAt (c, e₀) k = a k) ∧ (∀ k, foundAt (c', e₀) k = a' k) := by
  refine ⟨fun e he k => ?_, ?_⟩
  · have hm := h.others e he
    unfold foundAt
    simp only [hm]
    cases hc : c.map e with
    | none => rfl
    | some m => rw [(c.rep hc).unique (c'.rep (hm.trans hc))]
  · obtain ⟨m, m', h1, h2, h3⟩ := h.here
    have key := (c.rep h1).step o
    rw [h2] at key
    cases ha : (c.stored e₀).step o with
    | error x => rw [ha] at key; exact key.elim
    | ok a' =>
      rw [ha] at key
      have key : Rep A m' a' := key
      refine ⟨c.stored e₀, a', ha, fun k => by simp [foundAt, h1], fun k => ?_⟩
      rw [(key.unique (c'.rep h3))]
      simp [foundAt, h3]

theorem sameAt_of_edited {o : MapOp E Q} {e₀ : Ent} {c c' : MapComp (Q := Q) A Ent} (h : c = c' ∨ Edited o e₀ c c')
    (q : QualifierQuery Q) (s : StatInst E) (e : Ent)
    (ho : e ≠ e₀ ∨ ∀ k, FlagSpec.Matches k q → ¬ o.Touches ⟨s, k⟩) : SameAt q s (c, e) (c', e) := by
  intro k hk
  rcases h with rfl | h
  · rfl
  obtain ⟨h1, a, a', h2, h3, h4⟩ := h.found
  by_cases he : e = e₀
  · subst he
    rw [h3, h4, PMap.step_untouched (ho.resolve_left (fun h => h rfl) k hk) h2]
  · exact (h1 e he _).symm

theorem sameAt_children {o : MapOp E Q} {e₀ : Ent} {cs cs' : List (MapComp (Q := Q) A Ent)}
    (h : List.Forall₂ (fun c c' => c = c' ∨ Edited o e₀ c c') cs cs') (q : QualifierQuery Q) (s : StatInst E)
    (es : List Ent) (ho : e₀ ∉ es ∨ ∀ k, FlagSpec.Matches k q → ¬ o.Touches ⟨s, k⟩) :
    List.Forall₂ (SameAt q s) (cs.flatMap fun c => es.map (c, ·)) (cs'.flatMap fun c => es.map (c, ·)) := by
  induction h with
  | nil => exact .nil
  | cons hc _ ih =>
    rw [List.flatMap_cons, List.flatMap_cons]
    refine List.rel_append ?_ ih
    rw [List.forall₂_map_left_iff, List.forall₂_map_right_iff, List.forall₂_same]
    exact fun e he => sameAt_of_edited hc q s e (ho.imp_left fun h he' => h (he' ▸ he))

theorem sameAt_own {o : MapOp E Q} {e₀ : Ent} {cs cs' : List (MapComp (Q := Q) A Ent)}
    (h : List.Forall₂ (fun c c' => c = c' ∨ Edited o e₀ c c') cs cs') (q : QualifierQuery Q) (s : StatInst E)
    (e : Ent) (ho : e ≠ e₀ ∨ ∀ k, FlagSpec.Matches k q → ¬ o.Touches ⟨s, k⟩) :
    List.Forall₂ (SameAt q s) (cs.map (·, e)) (cs'.map (·, e)) := by
  rw [List.forall₂_map_left_iff, List.forall₂_map_right_iff]
  exact h.imp fun _ _ hc => sameAt_of_edited hc q s e ho

/-- C89: a call on the maps of one entity changes no query except those of the entity itself and of its parents, and
among these only queries of stats and qualifiers the call is about -/
theorem C89_untouched (h : OnlyMaps J own items) (h' : OnlyMaps J' own' items') (hw : J'.world = J.world)
    (o : MapOp E Q) (e₀ : Ent) (hown : List.Forall₂ (fun c c' => c = c' ∨ Edited o e₀ c c') own own')
    (hitems : List.Forall₂ (fun c c' => c = c' ∨ Edited o e₀ c c') items items')
    (e : Ent) (q : QualifierQuery Q) (s : StatInst E) (hs : Storable (E.layout s.ty))
    (he : J.world.isStat e = true) (v : s.Val) (hv : J.world.startValue A s = .ok (.val s.ty v))
    (ho : (e ≠ e₀ ∧ e₀ ∉ (J.world.children e).getD []) ∨ ∀ k, FlagSpec.Matches k q → ¬ o.Touches ⟨s, k⟩)
    (n : Nat) : J'.answer A (n + 1) (.stat e q s) = J.answer A (n + 1) (.stat e q s) := by
  refine (C89_depends h h' e e q s hs he (hw ▸ he) v hv (hw ▸ hv) ?_ n n).symm
  unfold mapPlaces
  rw [hw]
  exact List.rel_append (sameAt_own hown q s e (ho.imp_left (·.1)))
    (sameAt_children hitems q s _ (ho.imp_left (·.2)))

/-! ### one more entry -/

theorem listing_split {α β : Type} {R : α → β → Prop} {a b : List α} {l : List β} (h : List.Forall₂ R (a ++ b) l) :
    ∃ c d, List.Forall₂ R a c ∧ List.Forall₂ R b d ∧ l = c ++ d := by
  induction a generalizing l with
  | nil => exact ⟨[], l, .nil, h, rfl⟩
  | cons x a ih =>
    cases h with
    | cons hx h =>
      obtain ⟨c, d, h1, h2, rfl⟩ := ih h
      exact ⟨_ :: c, d, .cons hx h1, h2, rfl⟩

/-- C89, for every value type: one more matching entry at one of the places puts its value in between the joined
values, and changes nothing else -/
theorem C89_one_more (h : OnlyMaps J own items) (h' : OnlyMaps J' own' items') (e : Ent)
    (q : QualifierQuery Q) (s : StatInst E) (hs : Storable (E.layout s.ty))
    (he : J.world.isStat e = true) (he' : J'.world.isStat e = true) (v : s.Val)
    (hv : J.world.startValue A s = .ok (.val s.ty v)) (hv' : J'.world.startValue A s = .ok (.val s.ty v))
    {p1 p2 p1' p2' : List (MapComp (Q := Q) A Ent × Ent)} {x x' : MapComp (Q := Q) A Ent × Ent}
    (hp : mapPlaces J own items e = p1 ++ x :: p2) (hp' : mapPlaces J' own' items' e = p1' ++ x' :: p2')
    (h1 : List.Forall₂ (SameAt q s) p1 p1') (h2 : List.Forall₂ (SameAt q s) p2 p2')
    (k : Qualifier Q) (hk : FlagSpec.Matches k q) (w : s.Val) (hno : foundAt x ⟨s, k⟩ = none)
    (hyes : foundAt x' ⟨s, k⟩ = some w)
    (hrest : ∀ k', k' ≠ k → FlagSpec.Matches k' q → foundAt x ⟨s, k'⟩ = foundAt x' ⟨s, k'⟩) :
    OneMore J J' own items e q s v w := by
  obtain ⟨Ls, a1, a2, a3⟩ := C86_exact h e q s hs he v hv
  obtain ⟨Ls', b1, b2, b3⟩ := C86_exact h' e q s hs he' v hv'
  rw [hp] at a1
  rw [hp'] at b1
  obtain ⟨A1, R, c1, c2, rfl⟩ := listing_split a1
  obtain ⟨B1, R', d1, d2, rfl⟩ := listing_split b1
  obtain ⟨L, A2, c3, c4, rfl⟩ := List.forall₂_cons_left_iff.1 c2
  obtain ⟨L', B2, d3, d4, rfl⟩ := List.forall₂_cons_left_iff.1 d2
  have e1 : A1 = B1 := listed_eq h1 c1 d1 (fun L hL => a2 L (by simp [hL])) (fun L hL => b2 L (by simp [hL]))
  have e2 : A2 = B2 := listed_eq h2 c4 d4 (fun L hL => a2 L (by simp [hL])) (fun L hL => b2 L (by simp [hL]))
  subst e1 e2
  obtain ⟨c, d, rfl⟩ := List.append_of_mem ((d3.found k w).2 ⟨hyes, hk⟩)
  have hs' := b2 (c ++ (k, w) :: d) (by simp)
  have hL : L = c ++ d := by
    refine sorted_unique (a2 _ (by simp)) (hs'.sublist ?_) fun ⟨k', u⟩ => ?_
    · exact (List.Sublist.append_left (List.sublist_cons_self _ _) _).map _
    · have hne : (k', u) ∈ c ++ d → k' ≠ k := by
        rintro hm rfl
        have hn := d3.once
        rw [List.map_append, List.map_cons, List.nodup_middle, ← List.map_append] at hn
        exact (List.nodup_cons.1 hn).1 (List.mem_map.2 ⟨_, hm, rfl⟩)
      constructor
      · intro hm
        have hf := (c3.found k' u).1 hm
        have hkk : k' ≠ k := by rintro rfl; rw [hno] at hf; cases hf.1
        have := (d3.found k' u).2 ⟨hrest k' hkk hf.2 ▸ hf.1, hf.2⟩
        simp only [List.mem_append, List.mem_cons] at this ⊢
        rcases this with h | h | h
        · exact .inl h
        · cases h; exact absurd rfl hkk
        · exact .inr h
      · intro hm
        have hkk := hne hm
        have hf := (d3.found k' u).1 (by
          simp only [List.mem_append, List.mem_cons] at hm ⊢
          tauto)
        exact (c3.found k' u).2 ⟨(hrest k' hkk hf.2).trans hf.1, hf.2⟩
  subst hL
  refine ⟨A1.flatten.map (·.2) ++ c.map (·.2), d.map (·.2) ++ A2.flatten.map (·.2), fun Ls hL => ?_,
    fun n => ⟨?_, ?_⟩⟩
  · rw [hp] at hL
    refine ((listed_perm hL a1).map _).trans (.of_eq ?_)
    simp
  · rw [a3 n]
    congr 2
    simp
  · rw [b3 n]
    congr 2
    simp

/-- an entry that was added by `insert` -/
theorem Edited.inserted {k : Qualifier Q} {s : StatInst E} {w : s.Val} {e : Ent} {c c' : MapComp (Q := Q) A Ent}
    (h : Edited (.insert k s w) e c c') : foundAt (c', e) ⟨s, k⟩ = some w ∧
      ∀ k', k' ≠ k → foundAt (c, e) ⟨s, k'⟩ = foundAt (c', e) ⟨s, k'⟩ := by
  obtain ⟨-, a, a', h2, h3, h4⟩ := h.found
  refine ⟨?_, fun k' hk => ?_⟩
  · rw [h4]
    simp only [PMap.step, PMap.store] at h2
    split at h2
    · cases h2; simp [PMap.set]
    · cases h2
  · have hk' : ¬ (MapOp.insert k s w).Touches ⟨s, k'⟩ := fun h => hk (congrArg Key.qual h)
    rw [h3, h4, PMap.step_untouched hk' h2]

/-- C89: `insert`ing a matching value under a key not in use into a map of the entity itself -/
theorem C89_insert_own {l1 l2 : List (MapComp (Q := Q) A Ent)} {c c' : MapComp (Q := Q) A Ent} {e : Ent}
    {k : Qualifier Q} {s : StatInst E} {w : s.Val}
    (h : OnlyMaps J (l1 ++ c :: l2) items) (h' : OnlyMaps J' (l1 ++ c' :: l2) items') (hw : J'.world = J.world)
    (hc : Edited (.insert k s w) e c c')
    (hitems : List.Forall₂ (fun c c' => c = c' ∨ Edited (.insert k s w) e c c') items items')
    (hch : e ∉ (J.world.children e).getD [])
    (hno : c.stored e ⟨s, k⟩ = none) (q : QualifierQuery Q) (hk : FlagSpec.Matches k q)
    (hs : Storable (E.layout s.ty)) (he : J.world.isStat e = true) (v : s.Val)
    (hv : J.world.startValue A s = .ok (.val s.ty v)) :
    OneMore J J' (l1 ++ c :: l2) items e q s v w := by
  have same : ∀ l : List (MapComp (Q := Q) A Ent), List.Forall₂ (SameAt q s) (l.map (·, e)) (l.map (·, e)) :=
    fun l => List.forall₂_same.2 fun x _ k _ => rfl
  obtain ⟨hy, hr⟩ := hc.inserted
  refine C89_one_more h h' e q s hs he (hw ▸ he) v hv (hw ▸ hv) (p1 := l1.map (·, e)) (p1' := l1.map (·, e))
    (p2 := l2.map (·, e) ++ items.flatMap fun c => ((J.world.children e).getD []).map (c, ·))
    (p2' := l2.map (·, e) ++ items'.flatMap fun c => ((J.world.children e).getD []).map (c, ·))
    (x := (c, e)) (x' := (c', e)) (by simp [mapPlaces]) (by simp [mapPlaces, hw]) (same l1)
    (List.rel_append (same l2) (sameAt_children hitems q s _ (.inl hch))) k hk w ?_ hy fun k' hk' _ => hr k' hk'
  simp [foundAt, hno]

/-- C89: `insert`ing a matching value under a key not in use into a map of one of its children -/
theorem C89_insert_child {l1 l2 : List (MapComp (Q := Q) A Ent)} {c c' : MapComp (Q := Q) A Ent} {e e₀ : Ent}
    {k : Qualifier Q} {s : StatInst E} {w : s.Val} {d1 d2 : List Ent}
    (h : OnlyMaps J own (l1 ++ c :: l2)) (h' : OnlyMaps J' own' (l1 ++ c' :: l2)) (hw : J'.world = J.world)
    (hc : Edited (.insert k s w) e₀ c c')
    (hown : List.Forall₂ (fun c c' => c = c' ∨ Edited (.insert k s w) e₀ c c') own own') (hne : e ≠ e₀)
    (hch : J.world.children e = some (d1 ++ e₀ :: d2)) (hd : e₀ ∉ d1 ++ d2)
    (hno : c.stored e₀ ⟨s, k⟩ = none) (q : QualifierQuery Q) (hk : FlagSpec.Matches k q)
    (hs : Storable (E.layout s.ty)) (he : J.world.isStat e = true) (v : s.Val)
    (hv : J.world.startValue A s = .ok (.val s.ty v)) :
    OneMore J J' own (l1 ++ c :: l2) e q s v w := by
  have same : ∀ l : List (MapComp (Q := Q) A Ent × Ent), List.Forall₂ (SameAt q s) l l :=
    fun l => List.forall₂_same.2 fun x _ k _ => rfl
  have diff : ∀ d : List Ent, e₀ ∉ d → List.Forall₂ (SameAt q s) (d.map (c, ·)) (d.map (c', ·)) := fun d hd => by
    rw [List.forall₂_map_left_iff, List.forall₂_map_right_iff, List.forall₂_same]
    exact fun e he => sameAt_of_edited (.inr hc) q s e (.inl fun h => hd (h ▸ he))
  simp only [List.mem_append, not_or] at hd
  obtain ⟨hy, hr⟩ := hc.inserted
  refine C89_one_more h h' e q s hs he (hw ▸ he) v hv (hw ▸ hv)
    (p1 := own.map (·, e) ++ ((l1.flatMap fun c => (d1 ++ e₀ :: d2).map (c, ·)) ++ d1.map (c, ·)))
    (p1' := own'.map (·, e) ++ ((l1.flatMap fun c => (d1 ++ e₀ :: d2).map (c, ·)) ++ d1.map (c', ·)))
    (p2 := d2.map (c, ·) ++ l2.flatMap fun c => (d1 ++ e₀ :: d2).map (c, ·))
    (p2' := d2.map (c', ·) ++ l2.flatMap fun c => (d1 ++ e₀ :: d2).map (c, ·))
    (x := (c, e₀)) (x' := (c', e₀)) (by simp [mapPlaces, hch]) (by simp [mapPlaces, hw, hch])
    (List.rel_append (sameAt_own hown q s e (.inl hne)) (List.rel_append (same _) (diff d1 hd.1)))
    (List.rel_append (diff d2 hd.2) (same _)) k hk w ?_ hy fun k' hk' _ => hr k' hk'
  simp [foundAt, hno]

/-! ### what that means for numbers and flags -/

theorem largest_cons (a b : Int) (l : List Int) : largest a (b :: l) = max (largest a l) b := by
  induction l generalizing a with
  | nil => rfl
  | cons c l ih =>
    simp only [largest, List.foldl_cons] at ih ⊢
    rw [← ih (max a c), max_right_comm]

theorem smallest_cons (a b : Int) (l : List Int) : smallest a (b :: l) = min (smallest a l) b := by
  induction l generalizing a with
  | nil => rfl
  | cons c l ih =>
    simp only [smallest, List.foldl_cons] at ih ⊢
    rw [← ih (min a c), min_right_comm]

theorem SmallInts.tail {t : NumTy} {v w : StatInt} {l : List StatInt} (h : SmallInts t (v :: w :: l)) :
    SmallInts t (v :: l) := by
  obtain ⟨h1, h2, h3, h4, h5⟩ := h
  have p0 := one_le_magnitudes l
  have s0 : 0 ≤ (l.map fun v => |v.addend|).sum := List.sum_nonneg (by simp)
  simp only [List.map_cons, List.sum_cons, List.prod_cons] at h3 h4 h5
  have m : max 1 |v.mult| * (l.map fun v => max 1 |v.mult|).prod ≤
      max 1 |v.mult| * (max 1 |w.mult| * (l.map fun v => max 1 |v.mult|).prod) :=
    mul_le_mul_of_nonneg_left (le_mul_of_one_le_left (by linarith) (le_max_left _ _)) (by positivity)
  have a : |v.addend| + (l.map fun v => |v.addend|).sum ≤
      |v.addend| + (|w.addend| + (l.map fun v => |v.addend|).sum) := by
    linarith [abs_nonneg w.addend]
  refine ⟨fun x hx => h1 x ?_, fun x hx => h2 x ?_, ?_, ?_, ?_⟩
  · simp only [List.mem_cons] at hx ⊢; tauto
  · simp only [List.mem_cons] at hx ⊢; tauto
  · simp only [List.map_cons, List.sum_cons]; linarith
  · simp only [List.map_cons, List.prod_cons]; linarith
  · simp only [List.map_cons, List.sum_cons, List.prod_cons]
    exact (mul_le_mul a m (by positivity) (by positivity)).trans h5

/-- C89 for integers: with numbers small enough not to overflow, both queries return; the new value is added,
multiplied in and its bounds applied.  If it adds at least 0, multiplies by at least 1 and has no new upper bound, it
does not lower the result, provided the other addends and multipliers do not come to negative numbers. -/
theorem C89_int {e : Ent} {q : QualifierQuery Q} {s : StatInst E} {v w : s.Val} (t : NumTy)
    (h : OneMore J J' own items e q s v w) (hD : s.Is (statInt t))
    (Ls : List (List (Qualifier Q × s.Val))) (hL : List.Forall₂ (MatchesAt q s) (mapPlaces J own items e) Ls)
    (n : Nat) :
    let v₀ := asVal hD v
    let w₀ := asVal hD w
    let l := Ls.flatten.map fun x => asVal hD x.2
    let sum := ((v₀ :: l).map (·.addend)).sum
    let prod := ((v₀ :: l).map (·.mult)).prod
    let lo := largest v₀.min (l.map (·.min))
    let hi := smallest v₀.max (l.map (·.max))
    SmallInts t (v₀ :: w₀ :: l) →
    ∃ x out x' out', J.answer A (n + 1) (.stat e q s) = .ok (some x) ∧ s.sv.eval x = .ok out ∧
      J'.answer A (n + 1) (.stat e q s) = .ok (some x') ∧ s.sv.eval x' = .ok out' ∧
      asOut hD out = clampTo (sum * prod) lo hi ∧
      asOut hD out' = clampTo ((sum + w₀.addend) * (prod * w₀.mult)) (max lo w₀.min) (min hi w₀.max) ∧
      (0 ≤ w₀.addend → 1 ≤ w₀.mult → hi ≤ w₀.max → 0 ≤ sum → 0 ≤ prod →
        ((asOut hD out : Int) ≤ (asOut hD out' : Int))) := by
  intro v₀ w₀ l sum prod lo hi hsm
  obtain ⟨a, b, hp, ha⟩ := h
  have p : l.Perm ((a ++ b).map (asVal hD)) := by
    have := (hp Ls hL).map (asVal hD)
    rwa [List.map_map] at this
  have p' : (w₀ :: l).Perm ((a ++ w :: b).map (asVal hD)) := by
    refine (p.cons w₀).trans ?_
    rw [List.map_append, List.map_append, List.map_cons]
    exact List.perm_middle.symm
  have h1 := hsm.tail.perm (p.cons v₀)
  have h2 := hsm.perm (p'.cons v₀)
  have j1 := statInt.joinList_small t _ _ h1
  have j2 := statInt.joinList_small t _ _ h2
  have e1 := statInt.eval_small t _ _ h1
  have e2 := statInt.eval_small t _ _ h2
  rw [j1, Res.bind_ok] at e1
  rw [j2, Res.bind_ok] at e2
  obtain ⟨x, out, x1, x2, x3⟩ := joinList_as hD v (a ++ b) _ _ j1 e1
  obtain ⟨x', out', y1, y2, y3⟩ := joinList_as hD v (a ++ w :: b) _ _ j2 e2
  have x1 : joinList s.sv v (a ++ b) = .ok x := x1
  have y1 : joinList s.sv v (a ++ w :: b) = .ok x' := y1
  have r1 : asOut hD out = clampTo (sum * prod) lo hi := by
    rw [x3, ← largest_perm (p.map _), ← smallest_perm (p.map _), ← ((p.cons v₀).map _).sum_eq,
      ← ((p.cons v₀).map _).prod_eq]
  have r2 : asOut hD out' = clampTo ((sum + w₀.addend) * (prod * w₀.mult)) (max lo w₀.min) (min hi w₀.max) := by
    rw [y3, ← largest_perm (p'.map _), ← smallest_perm (p'.map _), ← ((p'.cons v₀).map _).sum_eq,
      ← ((p'.cons v₀).map _).prod_eq]
    simp only [List.map_cons, largest_cons, smallest_cons, List.sum_cons, List.prod_cons, sum, prod, lo, hi]
    congr 1
    ring
  refine ⟨x, out, x', out', ?_, x2, ?_, y2, r1, r2, fun q1 q2 q3 q4 q5 => ?_⟩
  · rw [(ha n).1, x1]; rfl
  · rw [(ha n).2, y1]; rfl
  · rw [r1, r2, min_eq_left q3]
    have : sum * prod ≤ (sum + w₀.addend) * (prod * w₀.mult) :=
      mul_le_mul (by linarith) (le_mul_of_one_le_right q5 q2) q5 (by linarith)
    exact max_le_max (min_le_min this le_rfl) (le_max_left _ _)

theorem or_shuffle {a b c d : Prop} : (a ∨ b ∨ c ∨ d) ↔ (a ∨ b ∨ d) ∨ c := by tauto

theorem flags_logic {xo xn yo yn wo wn : Prop} (ho : yo ↔ xo ∨ wo) (hn : yn ↔ xn ∨ wn) :
    ((xo ∧ ¬ (xo ∧ xn)) ∨ (¬ xo ∧ xo ∧ xn) ↔ xo ∧ ¬ xn) ∧
    ((yo ∧ ¬ (yo ∧ yn)) ∨ (¬ yo ∧ yo ∧ yn) ↔
      (((xo ∧ ¬ (xo ∧ xn)) ∨ (¬ xo ∧ xo ∧ xn)) ∨ (wo ∧ ¬ xn)) ∧ ¬ wn) := by
  by_cases xo <;> by_cases xn <;> by_cases wo <;> by_cases wn <;> simp_all

/-- C89 for flags: both queries return.  Before, a flag was set iff some value sets it and none removes it; the new
value adds the flags it sets, except those that another value removes, and takes away those it removes. -/
theorem C89_flags {e : Ent} {q : QualifierQuery Q} {s : StatInst E} {v w : s.Val} (T : Type)
    [BitXorFlags T] [FlagSetXor T] (h : OneMore J J' own items e q s v w) (hD : s.Is (statFlags T))
    (Ls : List (List (Qualifier Q × s.Val))) (hL : List.Forall₂ (MatchesAt q s) (mapPlaces J own items e) Ls)
    (n : Nat) :
    let w₀ := asVal hD w
    let l := asVal hD v :: Ls.flatten.map fun x => asVal hD x.2
    ∃ x out x' out', J.answer A (n + 1) (.stat e q s) = .ok (some x) ∧ s.sv.eval x = .ok out ∧
      J'.answer A (n + 1) (.stat e q s) = .ok (some x') ∧ s.sv.eval x' = .ok out' ∧
      ∀ f, (FlagSet.has (asOut hD out) f ↔ (∃ y ∈ l, FlagSet.has y.or f) ∧ ∀ y ∈ l, ¬ FlagSet.has y.not f) ∧
        (FlagSet.has (asOut hD out') f ↔ (FlagSet.has (asOut hD out) f ∨
          (FlagSet.has w₀.or f ∧ ∀ y ∈ l, ¬ FlagSet.has y.not f)) ∧ ¬ FlagSet.has w₀.not f) := by
  obtain ⟨a, b, hp, ha⟩ := h
  intro w₀ l
  have p : l.Perm (asVal hD v :: (a ++ b).map (asVal hD)) := by
    have := (hp Ls hL).map (asVal hD)
    rw [List.map_map] at this
    exact this.cons _
  obtain ⟨x, i1, i2, i3⟩ := statFlags.joinList_eq T ((a ++ b).map (asVal hD)) (asVal hD v)
  obtain ⟨y, k1, k2, k3⟩ := statFlags.joinList_eq T ((a ++ w :: b).map (asVal hD)) (asVal hD v)
  obtain ⟨x', out, x1, x2, x3⟩ := joinList_as hD v (a ++ b) _ _ i1 rfl
  obtain ⟨y', out', y1, y2, y3⟩ := joinList_as hD v (a ++ w :: b) _ _ k1 rfl
  have x1 : joinList s.sv v (a ++ b) = .ok x' := x1
  have y1 : joinList s.sv v (a ++ w :: b) = .ok y' := y1
  have hor : ∀ f, FlagSet.has y.or f ↔ FlagSet.has x.or f ∨ FlagSet.has (asVal hD w).or f := fun f => by
    rw [i2, k2]
    simp only [List.map_append, List.map_cons, List.mem_cons, List.mem_append, List.mem_map, or_and_right, exists_or,
      exists_eq_left]
    exact or_shuffle
  have hnot : ∀ f, FlagSet.has y.not f ↔ FlagSet.has x.not f ∨ FlagSet.has (asVal hD w).not f := fun f => by
    rw [i3, k3]
    simp only [List.map_append, List.map_cons, List.mem_cons, List.mem_append, List.mem_map, or_and_right, exists_or,
      exists_eq_left]
    exact or_shuffle
  refine ⟨x', out, y', out', ?_, x2, ?_, y2, fun f => ?_⟩
  · rw [(ha n).1, x1]; rfl
  · rw [(ha n).2, y1]; rfl
  · have hlor : (∃ y ∈ l, FlagSet.has y.or f) ↔ FlagSet.has x.or f := by
      rw [i2]
      simp only [p.mem_iff]
    have hlnot : (∀ y ∈ l, ¬ FlagSet.has y.not f) ↔ ¬ FlagSet.has x.not f := by
      rw [i3]
      simp only [p.mem_iff]
      push Not
      rfl
    rw [x3, y3, hlor, hlnot]
    simp only [exclude, FlagSetXor.has_xor, FlagSet.has_and]
    exact flags_logic (hor f) (hnot f)

/-! ### a concrete case: the child 2 of `demoMaps` gets `+10, *3` under flag 4 -/

def demoGiven : StatInt := ⟨10, -2147483648, 2147483647, 3⟩
def demoItemOps' (e : Nat) : Option (List (MapOp demo (BitVec 8))) :=
  if e = 2 then (demoItemOps e).map (· ++ [.insert ⟨0, 4⟩ (demoInt 0) demoGiven]) else demoItemOps e
def demoItem' : MapComp (Q := BitVec 8) demoAddr Nat := .ofOps demoItemOps'

theorem demoItem_edited : Edited (.insert ⟨0, 4⟩ (demoInt 0) demoGiven) 2 demoItem demoItem' where
  others e he := by simp [demoItem, demoItem', MapComp.ofOps, demoItemOps', he]
  here := ⟨_, _, rfl, rfl, rfl⟩

def demoMaps' : Joined demo (BitVec 8) Nat :=
  (({ demoWorld with relations := none }).withComponent demoOwn.stream).withChildren demoItem'.stream

/-- a query with flag 4 counts the new entry -/
def demoQ4 : QualifierQuery (BitVec 8) := .aggregate 4

theorem demo_oneMore : OneMore demoMaps demoMaps' [demoOwn] [demoItem] 0 demoQ4 (demoInt 0)
    (⟨0, -2147483648, 2147483647, 1⟩ : StatInt) demoGiven :=
  C89_insert_child (J' := demoMaps') (e := 0) (l1 := []) (l2 := []) (c' := demoItem') (own' := [demoOwn]) (e₀ := 2) (k := ⟨0, 4⟩)
    demoMaps_only ⟨rfl, rfl, rfl, rfl⟩ rfl demoItem_edited (.cons (.inl rfl) .nil) (by decide)
    (d1 := []) (d2 := [3]) rfl (by decide) rfl demoQ4 (by rw [← matches_iff]; decide) (by decide) rfl
    (⟨0, -2147483648, 2147483647, 1⟩ : StatInt) rfl

/-- before and after, and a query without the flag -/
example : (demoMaps.answer demoAddr 1 (.stat 0 demoQ4 (demoInt 0)) : Res (Option StatInt)) =
      .ok (some ⟨7, -100, 13, 2⟩) ∧
    (demoMaps'.answer demoAddr 1 (.stat 0 demoQ4 (demoInt 0)) : Res (Option StatInt)) =
      .ok (some ⟨17, -100, 13, 6⟩) ∧
    demoMaps'.answer demoAddr 1 (.stat 0 demoQ (demoInt 0)) = demoMaps.answer demoAddr 1 (.stat 0 demoQ (demoInt 0)) := by
  refine ⟨rfl, rfl, C89_untouched (J' := demoMaps') demoMaps_only (own' := [demoOwn]) (items' := [demoItem']) ⟨rfl, rfl, rfl, rfl⟩ rfl
    _ 2 (.cons (.inl rfl) .nil) (.cons (.inr demoItem_edited) .nil) 0 demoQ (demoInt 0) (by decide) rfl
    (⟨0, -2147483648, 2147483647, 1⟩ : StatInt) rfl (.inr fun k hk hk' => ?_) 0⟩
  cases congrArg Key.qual hk'
  rw [← matches_iff] at hk
  revert hk
  decide

end BSQ
