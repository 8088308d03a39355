import Verif.Spec.MapQuery
import Verif.Props.Join
import Verif.Props.Cache
/-!
# C86: entities that carry `StatMap`s, end to end
-/
namespace BSQ
set_option linter.unusedSectionVars false
variable {E : Env} {Q Ent : Type} [BitFlags Q] [FlagSet Q] [Ord Q] [Std.TransOrd Q] [Std.LawfulEqOrd Q]
  {A : Addr E} {J : Joined E Q Ent} {own items : List (MapComp (Q := Q) A Ent)}

/-- the calls made for a place: one if there is a map -/
def placeCalls (this : Ent) (q : QualifierQuery Q) (x : MapComp (Q := Q) A Ent × Ent) : List (Call E Q Ent) :=
  match x.1.map x.2 with
  | some m => [m.asStream A this q]
  | none => []

theorem MapComp.calls_eq (c : MapComp (Q := Q) A Ent) (this : Ent) (q : QualifierQuery Q) (es : List Ent) :
    c.stream.calls this q es = (es.map (c, ·)).flatMap (placeCalls this q) := by
  induction es with
  | nil => rfl
  | cons e es ih =>
    unfold CStream.calls at ih ⊢
    rw [List.map_cons, List.flatMap_cons, ← ih]
    unfold placeCalls
    cases h : c.map e with
    | none => rw [List.filterMap_cons_none (show c.stream.query e = none from h)]; rfl
    | some m => rw [List.filterMap_cons_some (show c.stream.query e = some m from h)]; rfl

theorem OnlyMaps.statCalls (h : OnlyMaps J own items) (e : Ent) (q : QualifierQuery Q) :
    J.statCalls e q = (mapPlaces J own items e).flatMap (placeCalls e q) := by
  unfold Joined.statCalls mapPlaces
  rw [h.globals, h.comp, h.child, h.rel, List.flatMap_append]
  simp only [List.map_nil, List.nil_append, List.flatMap_nil, List.append_nil]
  congr 1
  · induction own with
    | nil => rfl
    | cons c own ih =>
      rw [List.map_cons, List.flatMap_cons, List.map_cons, List.flatMap_cons, MapComp.calls_eq]
      congr 1
      · simp
      · clear h ih
        induction own with
        | nil => rfl
        | cons c own ih =>
          rw [List.map_cons, List.flatMap_cons, List.map_cons, List.flatMap_cons, MapComp.calls_eq, ih]
          simp
  · clear h
    induction items with
    | nil => rfl
    | cons c items ih =>
      rw [List.map_cons, List.flatMap_cons, ih, MapComp.calls_eq, List.flatMap_cons, List.flatMap_append]

/-- each place has a listing, and its call joins that -/
theorem place_listed (x : MapComp (Q := Q) A Ent × Ent) (this : Ent) (q : QualifierQuery Q) (s : StatInst E)
    (hs : Storable (E.layout s.ty)) :
    ∃ L : List (Qualifier Q × s.Val), (MatchesAt q s x L ∧ (L.map (·.1)).Pairwise KeyBefore.QualBefore) ∧
      ∃ ls : List (List s.Val), ls.flatten = L.map (·.2) ∧
      ∀ o : Oracle E Q Ent, List.Forall₂ (fun c l => Call.Joins o s c l) (placeCalls this q x) ls := by
  unfold placeCalls
  cases hm : x.1.map x.2 with
  | none => exact ⟨[], ⟨⟨List.nodup_nil, by simp [hm]⟩, .nil⟩, [], rfl, fun o => .nil⟩
  | some m =>
    obtain ⟨h, h1, h2⟩ := x.1.reached x.2 m hm
    obtain ⟨a, L, h3, h4, h5, h6⟩ := C44_stat_map (Ent := Ent) h m h1 this q s hs
    cases h2.symm.trans h3
    exact ⟨L, ⟨⟨h4.1, fun k v => by simp [hm, h5]⟩, h4.2⟩, [L.map (·.2)], by simp, fun o => .cons (h6 o) .nil⟩

theorem places_listed (l : List (MapComp (Q := Q) A Ent × Ent)) (this : Ent) (q : QualifierQuery Q)
    (s : StatInst E) (hs : Storable (E.layout s.ty)) :
    ∃ Ls : List (List (Qualifier Q × s.Val)), (List.Forall₂ (MatchesAt q s) l Ls ∧
      ∀ L ∈ Ls, (L.map (·.1)).Pairwise KeyBefore.QualBefore) ∧
      ∃ ls : List (List s.Val), ls.flatten = Ls.flatten.map (·.2) ∧
      ∀ o : Oracle E Q Ent, List.Forall₂ (fun c l => Call.Joins o s c l) (l.flatMap (placeCalls this q)) ls := by
  induction l with
  | nil => exact ⟨[], ⟨.nil, fun _ h => by cases h⟩, [], rfl, fun o => .nil⟩
  | cons x l ih =>
    obtain ⟨L, h1, ls, h2, h3⟩ := place_listed x this q s hs
    obtain ⟨Ls, h4, ls', h5, h6⟩ := ih
    refine ⟨L :: Ls, ⟨.cons h1.1 h4.1, List.forall_mem_cons.2 ⟨h1.2, h4.2⟩⟩, ls ++ ls', by simp [h2, h5], fun o => ?_⟩
    rw [List.flatMap_cons]
    exact List.rel_append (h3 o) (h6 o)

/-- C86, for every value type: a query on an entity whose sources are maps comes to the start value joined with
what is stored for the stat under matching qualifiers in its own maps and in those of its children, each once, and
nothing else; at every recursion depth.  Maps are taken in the order of the sources and children, and entries of one
map in the order of their qualifiers. -/
theorem C86_exact (h : OnlyMaps J own items) (e : Ent) (q : QualifierQuery Q) (s : StatInst E)
    (hs : Storable (E.layout s.ty)) (he : J.world.isStat e = true) (v : s.Val)
    (hv : J.world.startValue A s = .ok (.val s.ty v)) :
    ∃ Ls : List (List (Qualifier Q × s.Val)), List.Forall₂ (MatchesAt q s) (mapPlaces J own items e) Ls ∧
      (∀ L ∈ Ls, (L.map (·.1)).Pairwise KeyBefore.QualBefore) ∧
      ∀ n, J.answer A (n + 1) (.stat e q s) =
        (joinList s.sv v (Ls.flatten.map (·.2)) >>= fun x => .ok (some x)) := by
  obtain ⟨Ls, h1, ls, h2, h3⟩ := places_listed (mapPlaces J own items e) e q s hs
  refine ⟨Ls, h1.1, h1.2, fun n => ?_⟩
  rw [← h2]
  exact C44_value n e q s v hs he hv ls (by rw [h.statCalls]; exact h3 _)

theorem MatchesAt.perm {q : QualifierQuery Q} {s : StatInst E} {x : MapComp (Q := Q) A Ent × Ent}
    {L L' : List (Qualifier Q × s.Val)} (h : MatchesAt q s x L) (h' : MatchesAt q s x L') : L.Perm L' :=
  (List.perm_ext_iff_of_nodup (List.Nodup.of_map _ h.once) (List.Nodup.of_map _ h'.once)).2 fun ⟨k, v⟩ => by
    rw [h.mem, h'.mem]

theorem listed_perm {q : QualifierQuery Q} {s : StatInst E} {l : List (MapComp (Q := Q) A Ent × Ent)}
    {Ls Ls' : List (List (Qualifier Q × s.Val))} (h : List.Forall₂ (MatchesAt q s) l Ls)
    (h' : List.Forall₂ (MatchesAt q s) l Ls') : Ls.flatten.Perm Ls'.flatten := by
  induction h generalizing Ls' with
  | nil => cases h'; exact .refl _
  | cons hx _ ih =>
    cases h' with
    | cons hy h' => exact (hx.perm hy).append (ih h')

/-! ### closed forms -/

section
variable {X : (V : Type) × StatValue V} {V : Type} {D : StatValue V} (h : X = ⟨V, D⟩)

theorem joinList_as (v : X.1) (l : List X.1) (w : V) (out : D.Out)
    (hw : joinList D (asVal h v) (l.map (asVal h)) = .ok w) (ho : D.eval w = .ok out) :
    ∃ w' out', joinList X.2 v l = .ok w' ∧ X.2.eval w' = .ok out' ∧ asOut h out' = out := by
  subst h
  have : l.map (asVal (rfl : (⟨V, D⟩ : (V : Type) × StatValue V) = _)) = l := List.map_id l
  rw [this] at hw
  exact ⟨w, out, hw, ho, rfl⟩
end

theorem one_le_magnitudes (l : List StatInt) : 1 ≤ (l.map fun v => max 1 |v.mult|).prod := by
  induction l with
  | nil => simp
  | cons v l ih =>
    rw [List.map_cons, List.prod_cons]
    nlinarith [le_max_left 1 |v.mult|]

theorem abs_addends_le (l : List StatInt) : |(l.map (·.addend)).sum| ≤ (l.map fun v => |v.addend|).sum := by
  induction l with
  | nil => simp
  | cons v l ih =>
    simp only [List.map_cons, List.sum_cons]
    exact (abs_add_le _ _).trans (by linarith)

theorem abs_mults_le (l : List StatInt) : |(l.map (·.mult)).prod| ≤ (l.map fun v => max 1 |v.mult|).prod := by
  induction l with
  | nil => simp
  | cons v l ih =>
    simp only [List.map_cons, List.prod_cons, abs_mul]
    exact mul_le_mul (le_max_right _ _) ih (abs_nonneg _) (by positivity)

theorem statInt.joinList_small (t : NumTy) (l : List StatInt) (v : StatInt) (h : SmallInts t (v :: l)) :
    joinList (statInt t) v l = .ok
      { addend := v.addend + (l.map (·.addend)).sum
        min := largest v.min (l.map (·.min))
        max := smallest v.max (l.map (·.max))
        mult := v.mult * (l.map (·.mult)).prod } := by
  induction l generalizing v with
  | nil => simp [joinList, largest, smallest]
  | cons w l ih =>
    obtain ⟨h1, h2, h3, h4, h5⟩ := h
    have s0 : 0 ≤ (l.map fun v => |v.addend|).sum := List.sum_nonneg (by simp)
    have p0 : 1 ≤ (l.map fun v => max 1 |v.mult|).prod := one_le_magnitudes l
    simp only [List.map_cons, List.sum_cons, List.prod_cons] at h3 h4 h5
    have a1 := abs_add_le v.addend w.addend
    have m1 : |v.mult * w.mult| = |v.mult| * |w.mult| := abs_mul _ _
    have m2 : max 1 |v.mult * w.mult| ≤ max 1 |v.mult| * max 1 |w.mult| := by
      rw [m1]
      refine max_le ?_ (mul_le_mul (le_max_right _ _) (le_max_right _ _) (abs_nonneg _) (by simp))
      nlinarith [le_max_left 1 |v.mult|, le_max_left 1 |w.mult|]
    have p1 : 0 < max 1 |v.mult| * max 1 |w.mult| := by positivity
    have hv1 := h1 v (by simp)
    have hw1 := h1 w (by simp)
    have hv2 := h2 v (by simp)
    have hw2 := h2 w (by simp)
    have hu : t.prim.signed = false → t.prim.lo = 0 := fun h => by simp [IntTy.lo, h]
    have ra : t.prim.InRange (v.addend + w.addend) := by
      refine IntTy.inRange_of_abs (by linarith) fun hs => ?_
      have := hu hs
      have := hv1.1
      have := hw1.1
      omega
    have rm : t.prim.InRange (v.mult * w.mult) := by
      refine IntTy.inRange_of_abs ?_ fun hs => ?_
      · refine le_trans (le_trans (le_max_right 1 _) m2) (le_trans ?_ h4)
        rw [← mul_assoc]
        exact le_mul_of_one_le_right p1.le p0
      · have := hu hs
        exact mul_nonneg (by have := hv2.1; omega) (by have := hw2.1; omega)
    have hj : (statInt t).join v w = .ok ⟨v.addend + w.addend, max v.min w.min, min v.max w.max,
        v.mult * w.mult⟩ := by
      simp [NumTy.add, NumTy.mul, NumTy.fit_inRange ra, NumTy.fit_inRange rm, NumTy.max_eq, NumTy.min_eq]
    rw [joinList, hj, Res.bind_ok, ih]
    · simp only [List.map_cons, List.sum_cons, List.prod_cons, largest, smallest, List.foldl_cons, add_assoc,
        mul_assoc]
    · constructor
      · intro x hx
        rcases List.mem_cons.1 hx with rfl | hx
        · exact ra
        · exact h1 x (by simp [hx])
      · intro x hx
        rcases List.mem_cons.1 hx with rfl | hx
        · exact rm
        · exact h2 x (by simp [hx])
      · simp only [List.map_cons, List.sum_cons]
        linarith
      · simp only [List.map_cons, List.prod_cons]
        refine le_trans ?_ h4
        rw [← mul_assoc]
        exact mul_le_mul_of_nonneg_right m2 (by linarith)
      · simp only [List.map_cons, List.sum_cons, List.prod_cons]
        refine le_trans ?_ h5
        rw [← mul_assoc (max 1 |v.mult|)]
        refine mul_le_mul (by linarith) (mul_le_mul_of_nonneg_right m2 (by linarith)) (by positivity) (by positivity)

theorem SmallInts.perm {t : NumTy} {l l' : List StatInt} (h : SmallInts t l) (p : l.Perm l') : SmallInts t l' where
  addend v hv := h.addend v (p.mem_iff.2 hv)
  mult v hv := h.mult v (p.mem_iff.2 hv)
  sum := (p.map fun v : StatInt => |v.addend|).sum_eq ▸ h.sum
  prod := (p.map fun v : StatInt => max 1 |v.mult|).prod_eq ▸ h.prod
  both := (p.map fun v : StatInt => |v.addend|).sum_eq ▸ (p.map fun v : StatInt => max 1 |v.mult|).prod_eq ▸ h.both

theorem largest_perm {a : Int} {l l' : List Int} (p : l.Perm l') : largest a l = largest a l' :=
  p.foldl_eq' (fun x _ y _ z => by omega) a

theorem smallest_perm {a : Int} {l l' : List Int} (p : l.Perm l') : smallest a l = smallest a l' :=
  p.foldl_eq' (fun x _ y _ z => by omega) a

/-- evaluating small numbers -/
theorem statInt.eval_small (t : NumTy) (l : List StatInt) (v : StatInt) (h : SmallInts t (v :: l)) :
    (joinList (statInt t) v l >>= (statInt t).eval) = .ok
      (clampTo (((v :: l).map (·.addend)).sum * ((v :: l).map (·.mult)).prod)
        (largest v.min (l.map (·.min))) (smallest v.max (l.map (·.max)))) := by
  have r : t.prim.InRange (((v :: l).map (·.addend)).sum * ((v :: l).map (·.mult)).prod) := by
    refine IntTy.inRange_of_abs ?_ fun hs => ?_
    · rw [abs_mul]
      exact (mul_le_mul (abs_addends_le _) (abs_mults_le _) (abs_nonneg _)
        (List.sum_nonneg (by simp))).trans h.both
    · have hu : t.prim.lo = 0 := by simp [IntTy.lo, hs]
      refine mul_nonneg (List.sum_nonneg fun x hx => ?_) (List.prod_nonneg fun x hx => ?_)
      · obtain ⟨y, hy, rfl⟩ := List.mem_map.1 hx
        have := (h.addend y hy).1
        omega
      · obtain ⟨y, hy, rfl⟩ := List.mem_map.1 hx
        have := (h.mult y hy).1
        omega
  rw [statInt.joinList_small t l v h, Res.bind_ok]
  simp only [List.map_cons, List.sum_cons, List.prod_cons] at r ⊢
  simp [NumTy.mul, NumTy.fit_inRange r, NumTy.max_eq, NumTy.min_eq, clampTo]

/-- C86 for integers: if the numbers are small enough not to overflow, the query returns, and evaluates to the sum
of all addends times the product of all multipliers, clamped to the tightest bounds (the lower one winning) -/
theorem C86_int (h : OnlyMaps J own items) (e : Ent) (q : QualifierQuery Q) (s : StatInst E) (t : NumTy)
    (hD : s.Is (statInt t)) (hs : Storable (E.layout s.ty)) (he : J.world.isStat e = true) (v : s.Val)
    (hv : J.world.startValue A s = .ok (.val s.ty v)) (Ls : List (List (Qualifier Q × s.Val)))
    (hL : List.Forall₂ (MatchesAt q s) (mapPlaces J own items e) Ls) (n : Nat) :
    let v₀ := asVal hD v
    let l := Ls.flatten.map fun x => asVal hD x.2
    SmallInts t (v₀ :: l) →
    ∃ w out, J.answer A (n + 1) (.stat e q s) = .ok (some w) ∧ s.sv.eval w = .ok out ∧
      asOut hD out = clampTo (((v₀ :: l).map (·.addend)).sum * ((v₀ :: l).map (·.mult)).prod)
        (largest v₀.min (l.map (·.min))) (smallest v₀.max (l.map (·.max))) := by
  intro v₀ l hl
  obtain ⟨Ls', h1, -, h2⟩ := C86_exact h e q s hs he v hv
  have p : l.Perm (Ls'.flatten.map fun x => asVal hD x.2) := (listed_perm hL h1).map _
  have hl' := hl.perm (p.cons v₀)
  have hj := statInt.joinList_small t _ _ hl'
  have he := statInt.eval_small t _ _ hl'
  rw [hj, Res.bind_ok] at he
  have hm : (Ls'.flatten.map fun x => asVal hD x.2) = (Ls'.flatten.map (·.2)).map (asVal hD) := by
    rw [List.map_map]; rfl
  rw [hm] at hj he
  obtain ⟨w, out, h3, h4, h5⟩ := joinList_as hD v (Ls'.flatten.map (·.2)) _ _ hj he
  refine ⟨w, out, ?_, h4, ?_⟩
  · rw [h2 n]
    have h3 : joinList s.sv v (Ls'.flatten.map (·.2)) = .ok w := h3
    rw [h3]; rfl
  · rw [h5, ← hm, ← largest_perm (p.map _), ← smallest_perm (p.map _), ← ((p.cons v₀).map _).sum_eq,
      ← ((p.cons v₀).map _).prod_eq]

theorem statFlags.joinList_eq (T : Type) [BitXorFlags T] [FlagSet T] (l : List (StatFlags T)) (v : StatFlags T) :
    ∃ w, joinList (statFlags T) v l = .ok w ∧
      (∀ f, FlagSet.has w.or f ↔ ∃ x ∈ v :: l, FlagSet.has x.or f) ∧
      (∀ f, FlagSet.has w.not f ↔ ∃ x ∈ v :: l, FlagSet.has x.not f) := by
  induction l generalizing v with
  | nil => exact ⟨v, rfl, by simp, by simp⟩
  | cons x l ih =>
    obtain ⟨w, h1, h2, h3⟩ := ih ⟨BitFlags.bor v.not x.not, BitFlags.bor v.or x.or⟩
    refine ⟨w, ?_, fun f => ?_, fun f => ?_⟩
    · rw [joinList, ← h1]; rfl
    · rw [h2]; simp [FlagSet.has_or, or_assoc]
    · rw [h3]; simp [FlagSet.has_or, or_assoc]

/-- C86 for flags: the query returns, and a flag is in the result exactly if some value sets it and none removes
it -/
theorem C86_flags (h : OnlyMaps J own items) (e : Ent) (q : QualifierQuery Q) (s : StatInst E) (T : Type)
    [BitXorFlags T] [FlagSetXor T] (hD : s.Is (statFlags T)) (hs : Storable (E.layout s.ty))
    (he : J.world.isStat e = true) (v : s.Val) (hv : J.world.startValue A s = .ok (.val s.ty v))
    (Ls : List (List (Qualifier Q × s.Val))) (hL : List.Forall₂ (MatchesAt q s) (mapPlaces J own items e) Ls)
    (n : Nat) :
    let l := asVal hD v :: Ls.flatten.map fun x => asVal hD x.2
    ∃ w out, J.answer A (n + 1) (.stat e q s) = .ok (some w) ∧ s.sv.eval w = .ok out ∧
      ∀ f, FlagSet.has (asOut hD out) f ↔ (∃ x ∈ l, FlagSet.has x.or f) ∧ ∀ x ∈ l, ¬ FlagSet.has x.not f := by
  intro l
  obtain ⟨Ls', h1, -, h2⟩ := C86_exact h e q s hs he v hv
  have p : l.Perm (asVal hD v :: (Ls'.flatten.map (·.2)).map (asVal hD)) := by
    rw [List.map_map]
    exact ((listed_perm hL h1).map _).cons _
  obtain ⟨x, h3, h4, h5⟩ := statFlags.joinList_eq T ((Ls'.flatten.map (·.2)).map (asVal hD)) (asVal hD v)
  obtain ⟨w, out, h6, h7, h8⟩ := joinList_as hD v (Ls'.flatten.map (·.2)) _ _ h3 rfl
  refine ⟨w, out, ?_, h7, fun f => ?_⟩
  · rw [h2 n]
    have h6 : joinList s.sv v (Ls'.flatten.map (·.2)) = .ok w := h6
    rw [h6]; rfl
  · rw [h8]
    have hor : (∃ x ∈ l, FlagSet.has x.or f) ↔ FlagSet.has x.or f := by
      rw [h4]; exact exists_congr fun y => and_congr_left fun _ => p.mem_iff
    have hnot : (∀ x ∈ l, ¬ FlagSet.has x.not f) ↔ ¬ FlagSet.has x.not f := by
      rw [h5, not_exists]
      refine forall_congr' fun y => ?_
      rw [not_and, p.mem_iff]
    rw [hor, hnot]
    simp only [exclude, FlagSetXor.has_xor, FlagSet.has_and]
    tauto

/-! ### with a cache -/

theorem StatMap.asStream_safe (hj : ∀ (T : E.S) (v w : E.El (E.valTy T)),
    (E.sv (E.valTy T)).join v w ≠ .error .ub) (ops : List (MapOp E Q)) (m : StatMap E Q)
    (hm : StatMap.run A ops = .ok m) (this : Ent) (q : QualifierQuery Q) :
    Call.Safe (m.asStream A this q : Call E Q Ent) := by
  rintro ⟨s, b⟩ ⟨v, hv⟩
  change s.Val at v
  change b = .val s.ty v at hv
  subst hv
  obtain ⟨a, -, r⟩ := reachRep A hm
  obtain ⟨L, hL, -, -, hst⟩ := statList A r s
  have hx : m.streamStat A q ⟨s, .val s.ty v⟩ =
      (joinList s.sv v ((L.filter (fun p => p.1.qualifiesAs q)).map (·.2)) >>= fun v' =>
        .ok ⟨s, .val s.ty v'⟩) := by
    unfold StatMap.streamStat
    simp only [Vec.slice_eq r.sorted, hL, Res.bind_ok]
    by_cases hs : Storable (E.layout s.ty)
    · rw [joinEntries_eq s.vt hs q s.index L v]
      cases joinList s.sv v ((L.filter (fun p => p.1.qualifiesAs q)).map (·.2)) <;> rfl
    · cases L with
      | nil => rfl
      | cons x L => exact absurd (hst (by simp)) hs
  have hu : ∀ (l : List s.Val) (v : s.Val), joinList s.sv v l ≠ .error .ub := by
    intro l
    induction l with
    | nil => intro v h; cases h
    | cons w l ih =>
      intro v h
      rw [joinList] at h
      cases hjo : s.sv.join v w with
      | error x =>
        rw [hjo] at h
        cases h
        exact hj s.vt v w hjo
      | ok v' => rw [hjo] at h; exact ih v' h
  change (Prog.lift (m.streamStat A q ⟨s, .val s.ty v⟩)).All _
  rw [hx]
  cases hl : joinList s.sv v ((L.filter (fun p => p.1.qualifiesAs q)).map (·.2)) with
  | error x => exact fun h => hu _ _ (by rw [hl, h])
  | ok v' => exact ⟨rfl, v', rfl⟩

theorem OnlyMaps.safe (hj : ∀ (T : E.S) (v w : E.El (E.valTy T)), (E.sv (E.valTy T)).join v w ≠ .error .ub)
    (h : OnlyMaps J own items)
    (hd : ∀ d ∈ J.world.defaults, ∀ s b, HMap.get (StatInst.eq A) d s = some b →
      ∃ v : s.Val, b = .val s.ty v ∧ Storable (E.layout s.ty)) : J.Safe A where
  globals g hg := by rw [h.globals] at hg; cases hg
  streams st hst e it hit this q := by
    rw [h.comp, h.rel, h.child, List.append_nil, ← List.map_append] at hst
    obtain ⟨c, -, rfl⟩ := List.mem_map.1 hst
    obtain ⟨ops, h1, -⟩ := c.reached e it hit
    exact StatMap.asStream_safe hj ops it h1 this q
  relations st hst := by rw [h.rel] at hst; cases hst
  attrs st hst e it hit this a := by
    rw [h.comp, h.rel, h.child, List.append_nil, ← List.map_append] at hst
    obtain ⟨c, -, rfl⟩ := List.mem_map.1 hst
    intro h'; cases h'
  defaults := hd

theorem OnlyMaps.quiet (h : OnlyMaps J own items) : J.Quiet := by
  refine .of_streams (fun g hg => ?_) (fun st hst e it _ this q p => ?_) (fun st hst => ?_)
    (fun st hst e it _ this a => ?_)
  · rw [h.globals] at hg; cases hg
  · rw [h.comp, h.rel, h.child, List.append_nil, ← List.map_append] at hst
    obtain ⟨c, -, rfl⟩ := List.mem_map.1 hst
    exact .lift _
  · rw [h.rel] at hst; cases hst
  · rw [h.comp, h.rel, h.child, List.append_nil, ← List.map_append] at hst
    obtain ⟨c, -, rfl⟩ := List.mem_map.1 hst
    trivial

theorem history_querier [DecidableEq Ent] (evs : List (Event E Q Ent)) (J : Joined E Q Ent) (c : Cache E Q Ent) :
    ∀ o ∈ (history A J c evs).1, o.querier = J ∨ Event.change o.querier ∈ evs := by
  induction evs generalizing J c with
  | nil => intro o ho; cases ho
  | cons ev evs ih =>
    intro o ho
    cases ev with
    | query n r =>
      rcases List.mem_cons.1 ho with rfl | ho
      · exact .inl rfl
      · exact (ih _ _ o ho).imp_right (List.mem_cons_of_mem _)
    | clear =>
      rw [history] at ho
      cases hc : c.clear with
      | error x => rw [hc] at ho; cases ho
      | ok c' => rw [hc] at ho; exact (ih _ _ o ho).imp_right (List.mem_cons_of_mem _)
    | change J' =>
      rcases ih J' c o ho with h | h
      · exact .inr (by rw [h]; exact List.mem_cons_self)
      · exact .inr (List.mem_cons_of_mem _ h)

/-- C86 with a cache: in any history of queries, clears, and changes of the world or of the maps, each followed by
a clear before the next query, all queries run, and each comes to the join of what is stored at that time.  Joins
of the value types may panic, but do nothing worse. -/
theorem C86_cached [DecidableEq Ent] (hj : ∀ (T : E.S) (v w : E.El (E.valTy T)) x,
      (E.sv (E.valTy T)).join v w = .error x → x = .panic)
    (J : Joined E Q Ent) (evs : List (Event E Q Ent))
    (hJ : ∀ J', J' = J ∨ Event.change J' ∈ evs → (∃ own items, OnlyMaps (A := A) J' own items) ∧
      ∀ d ∈ J'.world.defaults, ∀ s b, HMap.get (StatInst.eq A) d s = some b →
        ∃ v : s.Val, b = .val s.ty v ∧ Storable (E.layout s.ty))
    (hc : Cleared false evs) :
    (history A J [] evs).1.length = evs.countP Event.isQuery ∧
    ∀ J' n e q s res, ⟨J', n + 1, .stat e q s, res⟩ ∈ (history A J [] evs).1 →
      J'.world.isStat e = true → Storable (E.layout s.ty) →
      res = J'.answer A (n + 1) (.stat e q s) ∧
      ∀ own items, OnlyMaps (A := A) J' own items →
        ∃ (v : s.Val) (Ls : List (List (Qualifier Q × s.Val))), J'.world.startValue A s = .ok (.val s.ty v) ∧
          List.Forall₂ (MatchesAt q s) (mapPlaces J' own items e) Ls ∧
          res = (joinList s.sv v (Ls.flatten.map (·.2)) >>= fun x => .ok (some x)) := by
  have hu : ∀ (T : E.S) (v w : E.El (E.valTy T)), (E.sv (E.valTy T)).join v w ≠ .error .ub :=
    fun T v w h => by cases hj T v w _ h
  have hsafe : ∀ J', J' = J ∨ Event.change J' ∈ evs → J'.Safe A := fun J' h => by
    obtain ⟨⟨own, items, h1⟩, h2⟩ := hJ J' h
    exact h1.safe hu h2
  have hhon : ∀ J', J' = J ∨ Event.change J' ∈ evs → J'.Right A := fun J' h => by
    obtain ⟨⟨own, items, h1⟩, -⟩ := hJ J' h
    exact ((hsafe J' h).honest h1.quiet.noStore).right
  obtain ⟨h1, h2⟩ := C48_transparent_partial J evs (hhon J (.inl rfl)) (fun J' h => hhon J' (.inr h)) hc
  refine ⟨h1, fun J' n e q s res hm he hs => ?_⟩
  have hmem : J' = J ∨ Event.change J' ∈ evs := by
    exact history_querier evs J [] _ hm
  have key : ∀ own items, OnlyMaps (A := A) J' own items →
        ∃ (v : s.Val) (Ls : List (List (Qualifier Q × s.Val))), J'.world.startValue A s = .ok (.val s.ty v) ∧
          List.Forall₂ (MatchesAt q s) (mapPlaces J' own items e) Ls ∧
          J'.answer A (n + 1) (.stat e q s) =
            (joinList s.sv v (Ls.flatten.map (·.2)) >>= fun x => .ok (some x)) := by
    intro own items h
    obtain ⟨v, hv⟩ := (hsafe J' hmem).startValue s hs
    obtain ⟨Ls, h3, -, h4⟩ := C86_exact h e q s hs he v hv
    exact ⟨v, Ls, hv, h3, h4 n⟩
  have hf : ∀ (l : List s.Val) (v : s.Val), joinList s.sv v l ≠ .error .fuel := by
    intro l
    induction l with
    | nil => intro v h; cases h
    | cons w l ih =>
      intro v h
      rw [joinList] at h
      cases hjo : s.sv.join v w with
      | error x =>
        rw [hjo] at h
        cases h
        cases hj s.vt v w _ hjo
      | ok v' => rw [hjo] at h; exact ih v' h
  have hr : res = J'.answer A (n + 1) (.stat e q s) := by
    obtain ⟨⟨own, items, h3⟩, -⟩ := hJ J' hmem
    obtain ⟨v, Ls, -, -, h4⟩ := key own items h3
    refine (h2 _ hm).1 ?_
    change J'.answer A (n + 1) (.stat e q s) ≠ _
    rw [h4]
    cases hl : joinList s.sv v (Ls.flatten.map (·.2)) with
    | error x => intro h; cases h; exact hf _ _ hl
    | ok x => intro h; cases h
  exact ⟨hr, by rw [hr]; exact key⟩

/-! ### a concrete case -/

/-- components holding the maps that histories leave, on the entities that have one -/
def MapComp.ofOps (ops : Ent → Option (List (MapOp E Q))) : MapComp (Q := Q) A Ent where
  map e := (ops e).bind fun h => (StatMap.run A h).toOption
  stored e := ((ops e).bind fun h => (PMap.run h).toOption).getD PMap.empty
  reached e m hm := by
    obtain ⟨h, h1, h2⟩ := Option.bind_eq_some_iff.1 hm
    have h3 : StatMap.run A h = .ok m := by
      cases hr : StatMap.run A h with
      | error x => rw [hr] at h2; cases h2
      | ok m' => rw [hr] at h2; cases h2; rfl
    obtain ⟨a, ha, -⟩ := reachRep A h3
    exact ⟨h, h3, by rw [h1, Option.bind_some, ha]; rfl⟩

/-- entities 0 and 1 have a map of their own: `(5, *2)` unqualified, `100` under flag 1 -/
def demoOwnOps (e : Nat) : Option (List (MapOp demo (BitVec 8))) :=
  if e < 2 then some [.insert ⟨0, 0⟩ (demoInt 0) ⟨5, -100, 100, 2⟩, .insertBase ⟨1, 0⟩ (demoInt 0) (100 : Int)] else none
def demoOwn : MapComp (Q := BitVec 8) demoAddr Nat := .ofOps demoOwnOps

/-- even entities have one for their parent: the number of the entity, at most 13 -/
def demoItemOps (e : Nat) : Option (List (MapOp demo (BitVec 8))) :=
  if e % 2 = 0 then some [.insertBase ⟨0, 0⟩ (demoInt 0) (e : Int), .modify ⟨0, 0⟩ (demoInt 0) (.max (13 : Int))]
  else none
def demoItem : MapComp (Q := BitVec 8) demoAddr Nat := .ofOps demoItemOps

def demoMaps : Joined demo (BitVec 8) Nat :=
  (({ demoWorld with relations := none }).withComponent demoOwn.stream).withChildren demoItem.stream

theorem demoMaps_only : OnlyMaps demoMaps [demoOwn] [demoItem] := ⟨rfl, rfl, rfl, rfl⟩

/-- `(0 + 5 + 2) * (1 * 2 * 1)`, at most 13 -/
example : (demoMaps.answer demoAddr 1 (.stat 0 demoQ (demoInt 0)) : Res (Option StatInt)) =
    .ok (some ⟨7, -100, 13, 2⟩) := rfl

theorem listed_of_run {ops : Ent → Option (List (MapOp E Q))} {e : Ent} {h : List (MapOp E Q)} {a : PMap E Q}
    {m : StatMap E Q} (ho : ops e = some h) (hm : StatMap.run A h = .ok m) (ha : PMap.run h = .ok a)
    {q : QualifierQuery Q} {s : StatInst E} {L : List (Qualifier Q × s.Val)} (h1 : (L.map (·.1)).Nodup)
    (h2 : ∀ k v, (k, v) ∈ L ↔ a ⟨s, k⟩ = some v ∧ FlagSpec.Matches k q) :
    MatchesAt q s (MapComp.ofOps (A := A) ops, e) L := by
  refine ⟨h1, fun k v => ?_⟩
  rw [h2]
  simp [MapComp.ofOps, ho, hm, ha, Except.toOption]

theorem demoOwn_listed : MatchesAt demoQ (demoInt 0) (demoOwn, 0)
    [(⟨0, 0⟩, (⟨5, -100, 100, 2⟩ : StatInt))] := by
  refine listed_of_run (ops := demoOwnOps) (h := [.insert ⟨0, 0⟩ (demoInt 0) ⟨5, -100, 100, 2⟩,
    .insertBase ⟨1, 0⟩ (demoInt 0) (100 : Int)]) (a := (PMap.empty.set ⟨demoInt 0, ⟨0, 0⟩⟩
      (⟨5, -100, 100, 2⟩ : StatInt)).set ⟨demoInt 0, ⟨1, 0⟩⟩ (⟨100, -2147483648, 2147483647, 1⟩ : StatInt))
    rfl rfl ?_ (by simp) fun k v => ?_
  · rfl
  rw [List.mem_singleton, ← matches_iff]
  by_cases h1 : k = ⟨1, 0⟩
  · subst h1
    refine ⟨fun h => absurd (congrArg (·.1.anyOf) h) (by change (1 : BitVec 8) ≠ 0; decide), fun h => absurd h.2 (by decide)⟩
  by_cases h0 : k = ⟨0, 0⟩
  · subst h0
    exact ⟨fun h => by cases h; exact ⟨rfl, by decide⟩, fun h => by cases h.1; rfl⟩
  · exact ⟨fun h => by cases h; exact absurd rfl h0, fun h => by
      have := h.1
      rw [PMap.set, dif_neg (fun h => h1 (congrArg Key.qual h))] at this
      rw [PMap.set, dif_neg (fun h => h0 (congrArg Key.qual h))] at this
      cases this⟩

theorem demoItem_listed : MatchesAt demoQ (demoInt 0) (demoItem, 2)
    [(⟨0, 0⟩, (⟨2, -2147483648, 13, 1⟩ : StatInt))] := by
  refine listed_of_run (ops := demoItemOps) (h := [.insertBase ⟨0, 0⟩ (demoInt 0) (2 : Int),
    .modify ⟨0, 0⟩ (demoInt 0) (.max (13 : Int))]) (a := (PMap.empty.set ⟨demoInt 0, ⟨0, 0⟩⟩
      (⟨2, -2147483648, 2147483647, 1⟩ : StatInt)).set ⟨demoInt 0, ⟨0, 0⟩⟩ (⟨2, -2147483648, 13, 1⟩ : StatInt))
    rfl rfl ?_ (by simp) fun k v => ?_
  · rfl
  rw [List.mem_singleton, ← matches_iff]
  by_cases h0 : k = ⟨0, 0⟩
  · subst h0
    exact ⟨fun h => by cases h; exact ⟨rfl, by decide⟩, fun h => by cases h.1; rfl⟩
  · exact ⟨fun h => by cases h; exact absurd rfl h0, fun h => by
      have := h.1
      rw [PMap.set, dif_neg (fun h => h0 (congrArg Key.qual h))] at this
      rw [PMap.set, dif_neg (fun h => h0 (congrArg Key.qual h))] at this
      cases this⟩

theorem demoItem_none : MatchesAt demoQ (demoInt 0) (demoItem, 3) [] := ⟨by simp, fun k v => by
  simp [demoItem, MapComp.ofOps, demoItemOps]⟩

example (n : Nat) : ∃ w out, demoMaps.answer demoAddr (n + 1) (.stat 0 demoQ (demoInt 0)) = .ok (some w) ∧
    (demoSv true).eval w = .ok out ∧ out = (13 : Int) :=
  C86_int demoMaps_only 0 demoQ (demoInt 0) ⟨.i32, .prim, .debug⟩ rfl (by decide) rfl
    (⟨0, -2147483648, 2147483647, 1⟩ : StatInt) rfl _
    (.cons demoOwn_listed (.cons demoItem_listed (.cons demoItem_none .nil))) n
    ⟨by decide, by decide, by decide, by decide, by decide⟩

/-- the same stats after the maps of the children have been taken away -/
def demoStripped : Joined demo (BitVec 8) Nat :=
  ({ demoWorld with relations := none }).withComponent demoOwn.stream

theorem demoStripped_only : OnlyMaps demoStripped [demoOwn] [] := ⟨rfl, rfl, rfl, rfl⟩

/-- ask twice, take the children's maps away, clear, ask again -/
def demoMapEvents : List (Event demo (BitVec 8) Nat) :=
  [.query 1 (.stat 0 demoQ (demoInt 0)), .query 1 (.stat 0 demoQ (demoInt 0)), .change demoStripped, .clear,
   .query 2 (.stat 0 demoQ (demoInt 0))]

theorem NumTy.fit_error {t : NumTy} {x : Int} {e : Err} (h : t.fit x = .error e) : e = .panic := by
  unfold NumTy.fit at h
  split at h
  · cases h
  · cases ho : t.ovf <;> rw [ho] at h <;> cases h
    rfl

theorem demo_join_panics (T : demo.S) (v w : demo.El (demo.valTy T)) (x : Err)
    (h : (demo.sv (demo.valTy T)).join v w = .error x) : x = .panic := by
  cases T with
  | false => cases h
  | true =>
    change (NumTy.fit _ _ >>= fun a => NumTy.fit _ _ >>= fun b => Except.ok _) = _ at h
    rcases h1 : NumTy.fit ⟨.i32, .prim, .debug⟩ (v.addend + w.addend) with y | a
    · rw [h1] at h; cases h; exact NumTy.fit_error h1
    · rw [h1, Res.bind_ok] at h
      rcases h2 : NumTy.fit ⟨.i32, .prim, .debug⟩ (v.mult * w.mult) with y | b
      · rw [h2] at h; cases h; exact NumTy.fit_error h2
      · rw [h2] at h; cases h

example (res : Res (Option StatInt))
    (h : ⟨demoStripped, 2, .stat 0 demoQ (demoInt 0), res⟩ ∈ (history demoAddr demoMaps [] demoMapEvents).1) :
    ∃ w out, res = .ok (some w) ∧ (demoSv true).eval w = .ok out ∧ out = (10 : Int) := by
  have := (C86_cached demo_join_panics demoMaps demoMapEvents (by
    intro J' hJ'
    simp only [demoMapEvents, List.mem_cons, reduceCtorEq, List.not_mem_nil, false_or, or_false,
      Event.change.injEq] at hJ'
    rcases hJ' with rfl | rfl
    · exact ⟨⟨_, _, demoMaps_only⟩, fun d hd => by cases hd⟩
    · exact ⟨⟨_, _, demoStripped_only⟩, fun d hd => by cases hd⟩) ⟨rfl, rfl, rfl, trivial⟩).2
    demoStripped 1 0 demoQ (demoInt 0) res h rfl (by decide)
  rw [this.1]
  exact C86_int demoStripped_only 0 demoQ (demoInt 0) ⟨.i32, .prim, .debug⟩ rfl (by decide) rfl
    (⟨0, -2147483648, 2147483647, 1⟩ : StatInt) rfl _ (.cons demoOwn_listed .nil) 1
    ⟨by decide, by decide, by decide, by decide, by decide⟩

/-- flags: an own map sets flags 0-3, a child's map removes flag 0 and sets flag 4 -/
def demoSets : MapComp (Q := BitVec 8) demoAddr Nat :=
  .ofOps fun _ => some [.insertBase ⟨0, 0⟩ (demoFlag 0) (15 : BitVec 8)]
def demoUnsets : MapComp (Q := BitVec 8) demoAddr Nat :=
  .ofOps fun e => if e = 2 then some [.insert ⟨0, 0⟩ (demoFlag 0) ⟨1, 16⟩] else none
def demoFlagMaps : Joined demo (BitVec 8) Nat :=
  (({ demoWorld with relations := none }).withComponent demoSets.stream).withChildren demoUnsets.stream

example : (demoFlagMaps.answer demoAddr 1 (.stat 0 demoQ (demoFlag 0)) : Res (Option (StatFlags (BitVec 8)))) =
    .ok (some ⟨1, 31⟩) := rfl

example (n : Nat) (Ls : List (List (Qualifier (BitVec 8) × StatFlags (BitVec 8))))
    (hL : List.Forall₂ (MatchesAt demoQ (demoFlag 0)) (mapPlaces demoFlagMaps [demoSets] [demoUnsets] 0) Ls) :
    ∃ w out, demoFlagMaps.answer demoAddr (n + 1) (.stat 0 demoQ (demoFlag 0)) = .ok (some w) ∧
      (demoSv false).eval w = .ok out ∧ ∀ f : Fin 8, (out : BitVec 8)[f.val] = true ↔
        (∃ x ∈ ⟨0, 0⟩ :: Ls.flatten.map (·.2), (x.or)[f.val] = true) ∧
        ∀ x ∈ ⟨0, 0⟩ :: Ls.flatten.map (·.2), ¬ (x.not)[f.val] = true :=
  C86_flags ⟨rfl, rfl, rfl, rfl⟩ 0 demoQ (demoFlag 0) (BitVec 8) rfl (by decide) rfl
    (⟨0, 0⟩ : StatFlags (BitVec 8)) rfl Ls hL n

end BSQ
