import Verif.Spec.MapReplace
import Verif.Props.MapLocal
/-!
# C89: changing the value of an entry, and removing it
-/
set_option linter.unusedSectionVars false
namespace BSQ
variable {E : Env} {Q Ent : Type} [BitFlags Q] [FlagSet Q] [Ord Q] [Std.TransOrd Q] [Std.LawfulEqOrd Q]
  {A : Addr E} {J J' : Joined E Q Ent} {own items own' items' : List (MapComp (Q := Q) A Ent)}

/-- C89, for every value type: another value in one matching entry at one of the places takes the place of the old one
between the joined values, and changes nothing else -/
theorem C89_one_other (h : OnlyMaps J own items) (h' : OnlyMaps J' own' items') (e : Ent)
    (q : QualifierQuery Q) (s : StatInst E) (hs : Storable (E.layout s.ty))
    (he : J.world.isStat e = true) (he' : J'.world.isStat e = true) (v : s.Val)
    (hv : J.world.startValue A s = .ok (.val s.ty v)) (hv' : J'.world.startValue A s = .ok (.val s.ty v))
    {p1 p2 p1' p2' : List (MapComp (Q := Q) A Ent × Ent)} {x x' : MapComp (Q := Q) A Ent × Ent}
    (hp : mapPlaces J own items e = p1 ++ x :: p2) (hp' : mapPlaces J' own' items' e = p1' ++ x' :: p2')
    (h1 : List.Forall₂ (SameAt q s) p1 p1') (h2 : List.Forall₂ (SameAt q s) p2 p2')
    (k : Qualifier Q) (hk : FlagSpec.Matches k q) (w w' : s.Val) (hw : foundAt x ⟨s, k⟩ = some w)
    (hw' : foundAt x' ⟨s, k⟩ = some w')
    (hrest : ∀ k', k' ≠ k → FlagSpec.Matches k' q → foundAt x ⟨s, k'⟩ = foundAt x' ⟨s, k'⟩) :
    OneOther J J' own items e q s v w w' := by
  obtain ⟨Ls, a1, a2, a3⟩ := C86_exact h e q s hs he v hv
  obtain ⟨Ls', b1, b2, b3⟩ := C86_exact h' e q s hs he' v hv'
  rw [hp] at a1
  rw [hp'] at b1
  obtain ⟨A1, R, c1, c2, rfl⟩ := listing_split a1
  obtain ⟨B1, R', d1, d2, rfl⟩ := listing_split b1
  obtain ⟨L, A2, c3, c4, rfl⟩ := List.forall₂_cons_left_iff.1 c2
  obtain ⟨L', B2, d3, d4, rfl⟩ := List.forall₂_cons_left_iff.1 d2
  have e1 : A1 = B1 := listed_eq h1 c1 d1 (fun L hL => a2 L (by simp [hL])) (fun L hL => b2 L (by simp [hL]))
  have e2 : A2 = B2 := listed_eq h2 c4 d4 (fun L hL => a2 L (by simp [hL])) (fun L hL => b2 L (by simp [hL]))
  subst e1 e2
  obtain ⟨c, d, rfl⟩ := List.append_of_mem ((c3.found k w).2 ⟨hw, hk⟩)
  have hs' := a2 (c ++ (k, w) :: d) (by simp)
  have hL : L' = c ++ (k, w') :: d := by
    refine sorted_unique (b2 _ (by simp)) (by simpa using hs') fun ⟨k', u⟩ => ?_
    have hmem : ∀ (y : s.Val), k' ≠ k → ((k', u) ∈ c ++ (k, y) :: d ↔ (k', u) ∈ c ++ (k, w) :: d) := by
      intro y hkk
      simp only [List.mem_append, List.mem_cons, Prod.mk.injEq, hkk, false_and, false_or]
    by_cases hkk : k' = k
    · subst hkk
      rw [d3.found, hw']
      constructor
      · rintro ⟨h, -⟩
        cases h
        simp
      · intro hm
        refine ⟨?_, hk⟩
        simp only [List.mem_append, List.mem_cons, Prod.mk.injEq, true_and] at hm
        have hn := c3.once
        rw [List.map_append, List.map_cons, List.nodup_middle, ← List.map_append] at hn
        rcases hm with hm | rfl | hm
        · exact absurd (List.mem_map.2 ⟨_, List.mem_append_left _ hm, rfl⟩) (List.nodup_cons.1 hn).1
        · rfl
        · exact absurd (List.mem_map.2 ⟨_, List.mem_append_right _ hm, rfl⟩) (List.nodup_cons.1 hn).1
    · rw [hmem w' hkk, c3.found, d3.found]
      constructor
      · rintro ⟨h, hm⟩; exact ⟨(hrest k' hkk hm).trans h, hm⟩
      · rintro ⟨h, hm⟩; exact ⟨(hrest k' hkk hm).symm.trans h, hm⟩
  subst hL
  refine ⟨A1.flatten.map (·.2) ++ c.map (·.2), d.map (·.2) ++ A2.flatten.map (·.2), fun Ls hL => ?_,
    fun n => ⟨?_, ?_⟩⟩
  · rw [hp] at hL
    refine ((listed_perm hL a1).map _).trans (.trans (.of_eq ?_) List.perm_middle)
    simp
  · rw [a3 n]
    congr 2
    simp
  · rw [b3 n]
    congr 2
    simp

/-- what a call that is about one key leaves under the others -/
theorem Edited.rest {o : MapOp E Q} {k : Qualifier Q} {s : StatInst E} (ho : o.Only ⟨s, k⟩) {e : Ent}
    {c c' : MapComp (Q := Q) A Ent} (h : Edited o e c c') (k' : Qualifier Q) (hk : k' ≠ k) :
    foundAt (c, e) ⟨s, k'⟩ = foundAt (c', e) ⟨s, k'⟩ := by
  obtain ⟨-, a, a', h2, h3, h4⟩ := h.found
  rw [h3, h4, PMap.step_untouched (fun h => hk (congrArg Key.qual (ho _ h))) h2]

/-- `mapPlaces` around a map of the entity itself -/
theorem places_own {l1 l2 : List (MapComp (Q := Q) A Ent)} {c c' : MapComp (Q := Q) A Ent} {e : Ent} {o : MapOp E Q}
    (hw : J'.world = J.world)
    (hitems : List.Forall₂ (fun c c' => c = c' ∨ Edited o e c c') items items')
    (hch : e ∉ (J.world.children e).getD []) (q : QualifierQuery Q) (s : StatInst E) :
    ∃ p1 p2 p1' p2', mapPlaces J (l1 ++ c :: l2) items e = p1 ++ (c, e) :: p2 ∧
      mapPlaces J' (l1 ++ c' :: l2) items' e = p1' ++ (c', e) :: p2' ∧
      List.Forall₂ (SameAt q s) p1 p1' ∧ List.Forall₂ (SameAt q s) p2 p2' := by
  have same : ∀ l : List (MapComp (Q := Q) A Ent), List.Forall₂ (SameAt q s) (l.map (·, e)) (l.map (·, e)) :=
    fun l => List.forall₂_same.2 fun x _ k _ => rfl
  exact ⟨l1.map (·, e), l2.map (·, e) ++ items.flatMap fun c => ((J.world.children e).getD []).map (c, ·),
    l1.map (·, e), l2.map (·, e) ++ items'.flatMap fun c => ((J.world.children e).getD []).map (c, ·),
    by simp [mapPlaces], by simp [mapPlaces, hw], same l1,
    List.rel_append (same l2) (sameAt_children hitems q s _ (.inl hch))⟩

/-- `mapPlaces` around a map of a child -/
theorem places_child {l1 l2 : List (MapComp (Q := Q) A Ent)} {c c' : MapComp (Q := Q) A Ent} {e e₀ : Ent}
    {o : MapOp E Q} {d1 d2 : List Ent} (hw : J'.world = J.world) (hc : Edited o e₀ c c')
    (hown : List.Forall₂ (fun c c' => c = c' ∨ Edited o e₀ c c') own own') (hne : e ≠ e₀)
    (hch : J.world.children e = some (d1 ++ e₀ :: d2)) (hd : e₀ ∉ d1 ++ d2) (q : QualifierQuery Q) (s : StatInst E) :
    ∃ p1 p2 p1' p2', mapPlaces J own (l1 ++ c :: l2) e = p1 ++ (c, e₀) :: p2 ∧
      mapPlaces J' own' (l1 ++ c' :: l2) e = p1' ++ (c', e₀) :: p2' ∧
      List.Forall₂ (SameAt q s) p1 p1' ∧ List.Forall₂ (SameAt q s) p2 p2' := by
  have same : ∀ l : List (MapComp (Q := Q) A Ent × Ent), List.Forall₂ (SameAt q s) l l :=
    fun l => List.forall₂_same.2 fun x _ k _ => rfl
  have diff : ∀ d : List Ent, e₀ ∉ d → List.Forall₂ (SameAt q s) (d.map (c, ·)) (d.map (c', ·)) := fun d hd => by
    rw [List.forall₂_map_left_iff, List.forall₂_map_right_iff, List.forall₂_same]
    exact fun e he => sameAt_of_edited (.inr hc) q s e (.inl fun h => hd (h ▸ he))
  simp only [List.mem_append, not_or] at hd
  exact ⟨own.map (·, e) ++ ((l1.flatMap fun c => (d1 ++ e₀ :: d2).map (c, ·)) ++ d1.map (c, ·)),
    d2.map (c, ·) ++ l2.flatMap fun c => (d1 ++ e₀ :: d2).map (c, ·),
    own'.map (·, e) ++ ((l1.flatMap fun c => (d1 ++ e₀ :: d2).map (c, ·)) ++ d1.map (c', ·)),
    d2.map (c', ·) ++ l2.flatMap fun c => (d1 ++ e₀ :: d2).map (c, ·),
    by simp [mapPlaces, hch], by simp [mapPlaces, hw, hch],
    List.rel_append (sameAt_own hown q s e (.inl hne)) (List.rel_append (same _) (diff d1 hd.1)),
    List.rel_append (diff d2 hd.2) (same _)⟩

/-- C89: a call about a matching key that is in use, on a map of the entity itself.  If the key is in use afterwards,
the new value takes the place of the old one; if not, the old one is taken out. -/
theorem C89_change_own {l1 l2 : List (MapComp (Q := Q) A Ent)} {c c' : MapComp (Q := Q) A Ent} {e : Ent}
    {k : Qualifier Q} {s : StatInst E} {o : MapOp E Q} (ho : o.Only ⟨s, k⟩) {w : s.Val}
    (h : OnlyMaps J (l1 ++ c :: l2) items) (h' : OnlyMaps J' (l1 ++ c' :: l2) items') (hw : J'.world = J.world)
    (hc : Edited o e c c')
    (hitems : List.Forall₂ (fun c c' => c = c' ∨ Edited o e c c') items items')
    (hch : e ∉ (J.world.children e).getD [])
    (hold : foundAt (c, e) ⟨s, k⟩ = some w) (q : QualifierQuery Q) (hk : FlagSpec.Matches k q)
    (hs : Storable (E.layout s.ty)) (he : J.world.isStat e = true) (v : s.Val)
    (hv : J.world.startValue A s = .ok (.val s.ty v)) :
    (∀ w', foundAt (c', e) ⟨s, k⟩ = some w' → OneOther J J' (l1 ++ c :: l2) items e q s v w w') ∧
    (foundAt (c', e) ⟨s, k⟩ = none → OneMore J' J (l1 ++ c' :: l2) items' e q s v w) := by
  obtain ⟨p1, p2, p1', p2', g1, g2, g3, g4⟩ := places_own (l1 := l1) (l2 := l2) (c := c) (c' := c') hw hitems hch q s
  refine ⟨fun w' hnew => C89_one_other h h' e q s hs he (hw ▸ he) v hv (hw ▸ hv) g1 g2 g3 g4 k hk w w' hold hnew
    fun k' hk' _ => hc.rest ho k' hk', fun hnew => ?_⟩
  have flip : ∀ {l l' : List (MapComp (Q := Q) A Ent × Ent)}, List.Forall₂ (SameAt q s) l l' →
      List.Forall₂ (SameAt q s) l' l := fun h => (h.imp fun _ _ hx k hk => (hx k hk).symm).flip
  exact C89_one_more h' h e q s hs (hw ▸ he) he v (hw ▸ hv) hv g2 g1 (flip g3) (flip g4) k hk w hnew hold
    fun k' hk' _ => (hc.rest ho k' hk').symm

/-- C89: the same for a map of one of its children -/
theorem C89_change_child {l1 l2 : List (MapComp (Q := Q) A Ent)} {c c' : MapComp (Q := Q) A Ent} {e e₀ : Ent}
    {k : Qualifier Q} {s : StatInst E} {o : MapOp E Q} (ho : o.Only ⟨s, k⟩) {w : s.Val} {d1 d2 : List Ent}
    (h : OnlyMaps J own (l1 ++ c :: l2)) (h' : OnlyMaps J' own' (l1 ++ c' :: l2)) (hw : J'.world = J.world)
    (hc : Edited o e₀ c c')
    (hown : List.Forall₂ (fun c c' => c = c' ∨ Edited o e₀ c c') own own') (hne : e ≠ e₀)
    (hch : J.world.children e = some (d1 ++ e₀ :: d2)) (hd : e₀ ∉ d1 ++ d2)
    (hold : foundAt (c, e₀) ⟨s, k⟩ = some w) (q : QualifierQuery Q) (hk : FlagSpec.Matches k q)
    (hs : Storable (E.layout s.ty)) (he : J.world.isStat e = true) (v : s.Val)
    (hv : J.world.startValue A s = .ok (.val s.ty v)) :
    (∀ w', foundAt (c', e₀) ⟨s, k⟩ = some w' → OneOther J J' own (l1 ++ c :: l2) e q s v w w') ∧
    (foundAt (c', e₀) ⟨s, k⟩ = none → OneMore J' J own' (l1 ++ c' :: l2) e q s v w) := by
  obtain ⟨p1, p2, p1', p2', g1, g2, g3, g4⟩ := places_child (l1 := l1) (l2 := l2) hw hc hown hne hch hd q s
  refine ⟨fun w' hnew => C89_one_other h h' e q s hs he (hw ▸ he) v hv (hw ▸ hv) g1 g2 g3 g4 k hk w w' hold hnew
    fun k' hk' _ => hc.rest ho k' hk', fun hnew => ?_⟩
  have flip : ∀ {l l' : List (MapComp (Q := Q) A Ent × Ent)}, List.Forall₂ (SameAt q s) l l' →
      List.Forall₂ (SameAt q s) l' l := fun h => (h.imp fun _ _ hx k hk => (hx k hk).symm).flip
  exact C89_one_more h' h e q s hs (hw ▸ he) he v (hw ▸ hv) hv g2 g1 (flip g3) (flip g4) k hk w hnew hold
    fun k' hk' _ => (hc.rest ho k' hk').symm

/-- C89: what the calls about one key leave there, where a value `w` was: `insert` the new value whatever the old one
was, `modify` and access by reference what they make of the old one, `remove` nothing. -/
theorem C89_change_value {c c' : MapComp (Q := Q) A Ent} {e : Ent} {k : Qualifier Q} {s : StatInst E} {w : s.Val}
    (hold : foundAt (c, e) ⟨s, k⟩ = some w) :
    (∀ x, Edited (.insert k s x) e c c' → foundAt (c', e) ⟨s, k⟩ = some x) ∧
    (∀ b, Edited (.insertBase k s b) e c c' → foundAt (c', e) ⟨s, k⟩ = some (s.sv.fromBase b)) ∧
    (∀ o, Edited (.modify k s o) e c c' → ∃ x, o.writeTo w = .ok x ∧ foundAt (c', e) ⟨s, k⟩ = some x) ∧
    (∀ f, Edited (.modifyWith k s f) e c c' → ∃ x, f w = .ok x ∧ foundAt (c', e) ⟨s, k⟩ = some x) ∧
    (∀ f, Edited (.getMut k s f) e c c' → ∃ x, f w = .ok x ∧ foundAt (c', e) ⟨s, k⟩ = some x) ∧
    (Edited (.remove k s) e c c' → foundAt (c', e) ⟨s, k⟩ = none) := by
  have store : ∀ {a a' : PMap E Q} {x : s.Val}, a.store ⟨s, k⟩ x = .ok a' → a' ⟨s, k⟩ = some x := by
    intro a a' x h
    simp only [PMap.store] at h
    split at h
    · cases h; simp [PMap.set]
    · cases h
  refine ⟨fun x h => ?_, fun b h => ?_, fun o h => ?_, fun f h => ?_, fun f h => ?_, fun h => ?_⟩ <;>
    obtain ⟨-, a, a', h2, h3, h4⟩ := h.found <;> rw [h3] at hold <;> rw [h4] <;> simp only [PMap.step] at h2
  · exact store h2
  · exact store h2
  all_goals try rw [hold] at h2
  · obtain ⟨x, hx, h⟩ := Res.bind_eq_ok.1 h2
    cases h; exact ⟨x, hx, by simp [PMap.set]⟩
  · obtain ⟨x, hx, h⟩ := Res.bind_eq_ok.1 h2
    cases h; exact ⟨x, hx, by simp [PMap.set]⟩
  · obtain ⟨x, hx, h⟩ := Res.bind_eq_ok.1 h2
    cases h; exact ⟨x, hx, by simp [PMap.set]⟩
  · cases h2
    simp [PMap.unset]

/-- C89 for integers: with numbers small enough not to overflow, another value means its addend, multiplier and bounds
in the place of those of the old one.  An upgrade (at least the addend, multiplier and bounds of the old value) does
not lower the result, if nothing comes to negative numbers. -/
theorem C89_other_int {e : Ent} {q : QualifierQuery Q} {s : StatInst E} {v w w' : s.Val} (t : NumTy)
    (h : OneOther J J' own items e q s v w w') (hD : s.Is (statInt t)) (n : Nat) :
    let v₀ := asVal hD v
    let w₀ := asVal hD w
    let w₁ := asVal hD w'
    ∃ l : List StatInt,
    (∀ Ls, List.Forall₂ (MatchesAt q s) (mapPlaces J own items e) Ls →
      (Ls.flatten.map fun x => asVal hD x.2).Perm (w₀ :: l)) ∧
    let sum := ((v₀ :: l).map (·.addend)).sum
    let prod := ((v₀ :: l).map (·.mult)).prod
    let lo := largest v₀.min (l.map (·.min))
    let hi := smallest v₀.max (l.map (·.max))
    (SmallInts t (v₀ :: w₀ :: l) → SmallInts t (v₀ :: w₁ :: l) →
    ∃ x out x' out', J.answer A (n + 1) (.stat e q s) = .ok (some x) ∧ s.sv.eval x = .ok out ∧
      J'.answer A (n + 1) (.stat e q s) = .ok (some x') ∧ s.sv.eval x' = .ok out' ∧
      asOut hD out = clampTo ((sum + w₀.addend) * (prod * w₀.mult)) (max lo w₀.min) (min hi w₀.max) ∧
      asOut hD out' = clampTo ((sum + w₁.addend) * (prod * w₁.mult)) (max lo w₁.min) (min hi w₁.max) ∧
      (w₀.addend ≤ w₁.addend → w₀.mult ≤ w₁.mult → w₀.min ≤ w₁.min → w₀.max ≤ w₁.max →
        0 ≤ sum + w₀.addend → 0 ≤ prod → 0 ≤ w₀.mult →
        ((asOut hD out : Int) ≤ (asOut hD out' : Int)))) := by
  intro v₀ w₀ w₁
  obtain ⟨a, b, hp, ha⟩ := h
  refine ⟨(a ++ b).map (asVal hD), fun Ls hL => ?_, ?_⟩
  · have := (hp Ls hL).map (asVal hD)
    rwa [List.map_map, List.map_cons] at this
  intro sum prod lo hi hsm hsm'
  have p : ∀ y, (asVal hD y :: (a ++ b).map (asVal hD)).Perm ((a ++ y :: b).map (asVal hD)) := by
    intro y
    rw [List.map_append, List.map_append, List.map_cons]
    exact List.perm_middle.symm
  have one : ∀ y, SmallInts t (v₀ :: asVal hD y :: (a ++ b).map (asVal hD)) →
      ∃ x out, joinList s.sv v (a ++ y :: b) = .ok x ∧ s.sv.eval x = .ok out ∧
        asOut hD out = clampTo ((sum + (asVal hD y).addend) * (prod * (asVal hD y).mult)) (max lo (asVal hD y).min)
          (min hi (asVal hD y).max) := by
    intro y hy
    have h2 := hy.perm ((p y).cons v₀)
    have j2 := statInt.joinList_small t _ _ h2
    have e2 := statInt.eval_small t _ _ h2
    rw [j2, Res.bind_ok] at e2
    obtain ⟨x', out', y1, y2, y3⟩ := joinList_as hD v (a ++ y :: b) _ _ j2 e2
    refine ⟨x', out', y1, y2, ?_⟩
    rw [y3, ← largest_perm ((p y).map _), ← smallest_perm ((p y).map _), ← (((p y).cons v₀).map _).sum_eq,
      ← (((p y).cons v₀).map _).prod_eq]
    simp only [List.map_cons, largest_cons, smallest_cons, List.sum_cons, List.prod_cons, sum, prod, lo, hi]
    congr 1
    ring
  obtain ⟨x, out, x1, x2, r1⟩ := one w hsm
  obtain ⟨x', out', y1, y2, r2⟩ := one w' hsm'
  refine ⟨x, out, x', out', ?_, x2, ?_, y2, r1, r2, fun q1 q2 q3 q4 q5 q6 q7 => ?_⟩
  · rw [(ha n).1, x1]; rfl
  · rw [(ha n).2, y1]; rfl
  · rw [r1, r2]
    have h1 : (sum + w₀.addend) * (prod * w₀.mult) ≤ (sum + w₁.addend) * (prod * w₁.mult) :=
      mul_le_mul (by linarith) (mul_le_mul_of_nonneg_left q2 q6) (mul_nonneg q6 q7) (by linarith)
    exact max_le_max (min_le_min h1 (min_le_min le_rfl q4)) (max_le_max le_rfl q3)

/-- C89 for flags: another value sets and removes its own flags instead of those of the old one.  If it sets at least
the flags the old one set, and removes none that the old one did not remove, no flag is lost. -/
theorem C89_other_flags {e : Ent} {q : QualifierQuery Q} {s : StatInst E} {v w w' : s.Val} (T : Type)
    [BitXorFlags T] [FlagSetXor T] (h : OneOther J J' own items e q s v w w') (hD : s.Is (statFlags T)) (n : Nat) :
    let v₀ := asVal hD v
    let w₀ := asVal hD w
    let w₁ := asVal hD w'
    ∃ l : List (StatFlags T),
    (∀ Ls, List.Forall₂ (MatchesAt q s) (mapPlaces J own items e) Ls →
      (Ls.flatten.map fun x => asVal hD x.2).Perm (w₀ :: l)) ∧
    ∃ x out x' out', J.answer A (n + 1) (.stat e q s) = .ok (some x) ∧ s.sv.eval x = .ok out ∧
      J'.answer A (n + 1) (.stat e q s) = .ok (some x') ∧ s.sv.eval x' = .ok out' ∧
      (∀ f, (FlagSet.has (asOut hD out) f ↔
          (∃ y ∈ v₀ :: w₀ :: l, FlagSet.has y.or f) ∧ ∀ y ∈ v₀ :: w₀ :: l, ¬ FlagSet.has y.not f) ∧
        (FlagSet.has (asOut hD out') f ↔
          (∃ y ∈ v₀ :: w₁ :: l, FlagSet.has y.or f) ∧ ∀ y ∈ v₀ :: w₁ :: l, ¬ FlagSet.has y.not f)) ∧
      ((∀ f, FlagSet.has w₀.or f → FlagSet.has w₁.or f) → (∀ f, FlagSet.has w₁.not f → FlagSet.has w₀.not f) →
        ∀ f, FlagSet.has (asOut hD out) f → FlagSet.has (asOut hD out') f) := by
  intro v₀ w₀ w₁
  obtain ⟨a, b, hp, ha⟩ := h
  refine ⟨(a ++ b).map (asVal hD), fun Ls hL => ?_, ?_⟩
  · have := (hp Ls hL).map (asVal hD)
    rwa [List.map_map, List.map_cons] at this
  have one : ∀ y : s.Val, ∃ x out, joinList s.sv v (a ++ y :: b) = .ok x ∧ s.sv.eval x = .ok out ∧
      ∀ f, (FlagSet.has (asOut hD out) f ↔
        (∃ z ∈ v₀ :: asVal hD y :: (a ++ b).map (asVal hD), FlagSet.has z.or f) ∧
          ∀ z ∈ v₀ :: asVal hD y :: (a ++ b).map (asVal hD), ¬ FlagSet.has z.not f) := by
    intro y
    have p : (v₀ :: (a ++ y :: b).map (asVal hD)).Perm (v₀ :: asVal hD y :: (a ++ b).map (asVal hD)) := by
      rw [List.map_append, List.map_append, List.map_cons]
      exact List.perm_middle.cons _
    obtain ⟨x, i1, i2, i3⟩ := statFlags.joinList_eq T ((a ++ y :: b).map (asVal hD)) (asVal hD v)
    obtain ⟨x', out, x1, x2, x3⟩ := joinList_as hD v (a ++ y :: b) _ _ i1 rfl
    refine ⟨x', out, x1, x2, fun f => ?_⟩
    have hor : (∃ z ∈ v₀ :: asVal hD y :: (a ++ b).map (asVal hD), FlagSet.has z.or f) ↔ FlagSet.has x.or f := by
      rw [i2]
      simp only [← p.mem_iff]
      rfl
    have hnot : (∀ z ∈ v₀ :: asVal hD y :: (a ++ b).map (asVal hD), ¬ FlagSet.has z.not f) ↔
        ¬ FlagSet.has x.not f := by
      rw [i3]
      simp only [← p.mem_iff]
      push Not
      rfl
    rw [x3, hor, hnot]
    simp only [exclude, FlagSetXor.has_xor, FlagSet.has_and]
    by_cases h1 : FlagSet.has x.or f <;> by_cases h2 : FlagSet.has x.not f <;> simp [h1, h2]
  obtain ⟨x, out, x1, x2, r1⟩ := one w
  obtain ⟨x', out', y1, y2, r2⟩ := one w'
  refine ⟨x, out, x', out', ?_, x2, ?_, y2, fun f => ⟨r1 f, r2 f⟩, fun h1 h2 f hf => ?_⟩
  · rw [(ha n).1, x1]; rfl
  · rw [(ha n).2, y1]; rfl
  · obtain ⟨⟨z, hz, ho⟩, hn⟩ := (r1 f).1 hf
    refine (r2 f).2 ⟨?_, fun z hz => ?_⟩
    · rcases List.mem_cons.1 hz with rfl | hz
      · exact ⟨_, List.mem_cons_self .., ho⟩
      rcases List.mem_cons.1 hz with rfl | hz
      · exact ⟨_, List.mem_cons_of_mem _ (List.mem_cons_self ..), h1 f ho⟩
      · exact ⟨z, List.mem_cons_of_mem _ (List.mem_cons_of_mem _ hz), ho⟩
    · rcases List.mem_cons.1 hz with rfl | hz
      · exact hn _ (List.mem_cons_self ..)
      rcases List.mem_cons.1 hz with rfl | hz
      · exact fun h => hn _ (List.mem_cons_of_mem _ (List.mem_cons_self ..)) (h2 f h)
      · exact hn z (List.mem_cons_of_mem _ (List.mem_cons_of_mem _ hz))

/-- the calls `C89_change_value` is about are about one key -/
theorem C89_only (k : Qualifier Q) (s : StatInst E) :
    (∀ x, (MapOp.insert k s x).Only ⟨s, k⟩) ∧ (∀ b, (MapOp.insertBase k s b).Only ⟨s, k⟩) ∧
    (∀ o, (MapOp.modify k s o).Only ⟨s, k⟩) ∧ (∀ f, (MapOp.modifyWith k s f).Only ⟨s, k⟩) ∧
    (∀ f, (MapOp.getMut k s f).Only ⟨s, k⟩) ∧ (MapOp.remove k s).Only ⟨s, k⟩ :=
  ⟨fun _ _ h => h, fun _ _ h => h, fun _ _ h => h, fun _ _ h => h, fun _ _ h => h, fun _ h => h⟩

/-! ### a concrete case: the entry `+10, *3` of the child 2 of `demoMaps'` gets 5 more, or is removed -/

def demoMore (o : MapOp demo (BitVec 8)) : MapComp (Q := BitVec 8) demoAddr Nat :=
  .ofOps fun e => if e = 2 then (demoItemOps' e).map (· ++ [o]) else demoItemOps' e
def demoAfter (o : MapOp demo (BitVec 8)) : Joined demo (BitVec 8) Nat :=
  (({ demoWorld with relations := none }).withComponent demoOwn.stream).withChildren (demoMore o).stream
def demoAdd5 : MapOp demo (BitVec 8) := .modify ⟨0, 4⟩ (demoInt 0) (.add (5 : Int))
def demoGone : MapOp demo (BitVec 8) := .remove ⟨0, 4⟩ (demoInt 0)

theorem demoAdd5_edited : Edited demoAdd5 2 demoItem' (demoMore demoAdd5) where
  others e he := by simp [demoItem', demoMore, MapComp.ofOps, he]
  here := ⟨_, _, rfl, rfl, rfl⟩
theorem demoGone_edited : Edited demoGone 2 demoItem' (demoMore demoGone) where
  others e he := by simp [demoItem', demoMore, MapComp.ofOps, he]
  here := ⟨_, _, rfl, rfl, rfl⟩

theorem demo_oneOther : OneOther demoMaps' (demoAfter demoAdd5) [demoOwn] [demoItem'] 0 demoQ4 (demoInt 0)
    (⟨0, -2147483648, 2147483647, 1⟩ : StatInt) demoGiven (⟨15, -2147483648, 2147483647, 3⟩ : StatInt) :=
  (C89_change_child (J := demoMaps') (J' := demoAfter demoAdd5) (e := 0) (l1 := []) (l2 := []) (c := demoItem')
    (c' := demoMore demoAdd5) (own' := [demoOwn]) (e₀ := 2) (k := ⟨0, 4⟩) ((C89_only _ _).2.2.1 _) ⟨rfl, rfl, rfl, rfl⟩
    ⟨rfl, rfl, rfl, rfl⟩ rfl demoAdd5_edited (.cons (.inl rfl) .nil) (by decide) (d1 := []) (d2 := [3]) rfl
    (by decide) rfl demoQ4 (by rw [← matches_iff]; decide) (by decide) rfl
    (⟨0, -2147483648, 2147483647, 1⟩ : StatInt) rfl).1 _ rfl

theorem demo_oneLess : OneMore (demoAfter demoGone) demoMaps' [demoOwn] [demoMore demoGone] 0 demoQ4 (demoInt 0)
    (⟨0, -2147483648, 2147483647, 1⟩ : StatInt) demoGiven :=
  (C89_change_child (J := demoMaps') (J' := demoAfter demoGone) (e := 0) (l1 := []) (l2 := []) (c := demoItem')
    (c' := demoMore demoGone) (own' := [demoOwn]) (e₀ := 2) (k := ⟨0, 4⟩) (C89_only _ _).2.2.2.2.2 ⟨rfl, rfl, rfl, rfl⟩
    ⟨rfl, rfl, rfl, rfl⟩ rfl demoGone_edited (.cons (.inl rfl) .nil) (by decide) (d1 := []) (d2 := [3]) rfl
    (by decide) rfl demoQ4 (by rw [← matches_iff]; decide) (by decide) rfl
    (⟨0, -2147483648, 2147483647, 1⟩ : StatInt) rfl).2 rfl

/-- before, with 5 more, and without the entry -/
example : (demoMaps'.answer demoAddr 1 (.stat 0 demoQ4 (demoInt 0)) : Res (Option StatInt)) =
      .ok (some ⟨17, -100, 13, 6⟩) ∧
    ((demoAfter demoAdd5).answer demoAddr 1 (.stat 0 demoQ4 (demoInt 0)) : Res (Option StatInt)) =
      .ok (some ⟨22, -100, 13, 6⟩) ∧
    ((demoAfter demoGone).answer demoAddr 1 (.stat 0 demoQ4 (demoInt 0)) : Res (Option StatInt)) =
      .ok (some ⟨7, -100, 13, 2⟩) := ⟨rfl, rfl, rfl⟩

/-! ### a concrete case for flags: the child 2 sets 5 and removes 2, then sets 7 and removes nothing -/

def demoFlagOps (l : List (MapOp demo (BitVec 8))) : MapComp (Q := BitVec 8) demoAddr Nat :=
  .ofOps fun e => if e = 2 then (demoItemOps' e).map (· ++ l) else demoItemOps' e
def demoFlagsAfter (l : List (MapOp demo (BitVec 8))) : Joined demo (BitVec 8) Nat :=
  (({ demoWorld with relations := none }).withComponent demoOwn.stream).withChildren (demoFlagOps l).stream
def demoFlagOld : MapOp demo (BitVec 8) := .insert ⟨0, 4⟩ (demoFlag 0) (⟨2, 5⟩ : StatFlags (BitVec 8))
def demoFlagNew : MapOp demo (BitVec 8) := .insert ⟨0, 4⟩ (demoFlag 0) (⟨0, 7⟩ : StatFlags (BitVec 8))

theorem demoFlag_edited : Edited demoFlagNew 2 (demoFlagOps [demoFlagOld]) (demoFlagOps [demoFlagOld, demoFlagNew]) where
  others e he := by simp [demoFlagOps, MapComp.ofOps, he]
  here := ⟨_, _, rfl, rfl, rfl⟩

theorem demo_otherFlags : OneOther (demoFlagsAfter [demoFlagOld]) (demoFlagsAfter [demoFlagOld, demoFlagNew]) [demoOwn]
    [demoFlagOps [demoFlagOld]] 0 demoQ4 (demoFlag 0) (⟨0, 0⟩ : StatFlags (BitVec 8))
    (⟨2, 5⟩ : StatFlags (BitVec 8)) (⟨0, 7⟩ : StatFlags (BitVec 8)) :=
  (C89_change_child (J := demoFlagsAfter [demoFlagOld]) (J' := demoFlagsAfter [demoFlagOld, demoFlagNew]) (e := 0)
    (l1 := []) (l2 := []) (c := demoFlagOps [demoFlagOld]) (c' := demoFlagOps [demoFlagOld, demoFlagNew])
    (own' := [demoOwn]) (e₀ := 2) (k := ⟨0, 4⟩) ((C89_only _ _).1 _) ⟨rfl, rfl, rfl, rfl⟩
    ⟨rfl, rfl, rfl, rfl⟩ rfl demoFlag_edited (.cons (.inl rfl) .nil) (by decide) (d1 := []) (d2 := [3]) rfl
    (by decide) rfl demoQ4 (by rw [← matches_iff]; decide) (by decide) rfl
    (⟨0, 0⟩ : StatFlags (BitVec 8)) rfl).1 _ rfl

example : ((demoFlagsAfter [demoFlagOld]).answer demoAddr 1 (.stat 0 demoQ4 (demoFlag 0)) :
      Res (Option (StatFlags (BitVec 8)))) = .ok (some ⟨2, 5⟩) ∧
    ((demoFlagsAfter [demoFlagOld, demoFlagNew]).answer demoAddr 1 (.stat 0 demoQ4 (demoFlag 0)) :
      Res (Option (StatFlags (BitVec 8)))) = .ok (some ⟨0, 7⟩) := ⟨rfl, rfl⟩

end BSQ
