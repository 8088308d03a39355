import Verif.Spec.Grown
import Verif.Props.MapLocal
import Verif.Props.MonotoneFloat
import Verif.Props.Assembled
/-!
# C123: more bonuses in the maps never lower a stat, in floating point too
-/
namespace BSQ
set_option linter.unusedSectionVars false
variable {E : Env} {Q Ent : Type} [BitFlags Q] [FlagSet Q] [Ord Q] [Std.TransOrd Q] [Std.LawfulEqOrd Q]
  {A : Addr E} {J J' : Joined E Q Ent} {own items own' items' : List (MapComp (Q := Q) A Ent)} {e e' : Ent}
  {q : QualifierQuery Q} {s : StatInst E}

theorem Threads.append {α β : Type} {R : Option α → β → Prop} {a b : List α} {a' b' : List β} (h : Threads R a a')
    (h' : Threads R b b') : Threads R (a ++ b) (a' ++ b') := by
  induction h with
  | nil => exact h'
  | keep h _ ih => exact .keep h ih
  | put h _ ih => exact .put h ih

/-- listings in the order of qualifiers -/
theorem Threads.of_sorted {α β : Type} {R : Option α → β → Prop} {L : List (Qualifier Q × α)}
    {L' : List (Qualifier Q × β)} (h : (L.map (·.1)).Pairwise KeyBefore.QualBefore)
    (h' : (L'.map (·.1)).Pairwise KeyBefore.QualBefore)
    (h1 : ∀ k a, (k, a) ∈ L → ∃ b, (k, b) ∈ L' ∧ R (some a) b)
    (h2 : ∀ k b, (k, b) ∈ L' → (∃ a, (k, a) ∈ L) ∨ R none b) : Threads R (L.map (·.2)) (L'.map (·.2)) := by
  induction L' generalizing L with
  | nil =>
    cases L with
    | nil => exact .nil
    | cons x L => obtain ⟨b, hb, -⟩ := h1 x.1 x.2 (by simp); simp at hb
  | cons y L' ih =>
    obtain ⟨k', b⟩ := y
    simp only [List.map_cons, List.pairwise_cons] at h'
    have notin : ∀ b', (k', b') ∉ L' := fun b' hb' =>
      qualBefore_irrefl _ (h'.1 k' (List.mem_map.2 ⟨_, hb', rfl⟩))
    by_cases hk : ∃ a, (k', a) ∈ L
    · -- then it comes first there, too
      obtain ⟨a, ha⟩ := hk
      cases L with
      | nil => simp at ha
      | cons x L =>
        obtain ⟨k, a₀⟩ := x
        simp only [List.map_cons, List.pairwise_cons] at h
        have hk : k = k' := by
          by_contra hne
          rcases List.mem_cons.1 ha with h0 | h0
          · exact hne (Prod.ext_iff.1 h0).1.symm
          · have c1 := h.1 k' (List.mem_map.2 ⟨_, h0, rfl⟩)
            obtain ⟨b', hb', -⟩ := h1 k a₀ (by simp)
            rcases List.mem_cons.1 hb' with h3 | h3
            · exact hne (Prod.ext_iff.1 h3).1
            · exact qualBefore_asymm c1 (h'.1 k (List.mem_map.2 ⟨_, h3, rfl⟩))
        subst hk
        obtain ⟨b', hb', hR⟩ := h1 k a₀ (by simp)
        have : b' = b := by
          rcases List.mem_cons.1 hb' with h3 | h3
          · exact (Prod.ext_iff.1 h3).2
          · exact absurd h3 (notin b')
        subst this
        have notin' : ∀ a', (k, a') ∉ L := fun a' hb' =>
          qualBefore_irrefl _ (h.1 k (List.mem_map.2 ⟨_, hb', rfl⟩))
        refine .keep hR (ih h.2 h'.2 (fun k₁ a₁ hm => ?_) fun k₁ b₁ hm => ?_)
        · obtain ⟨b₁, hb₁, hR₁⟩ := h1 k₁ a₁ (by simp [hm])
          rcases List.mem_cons.1 hb₁ with h3 | h3
          · obtain ⟨rfl, -⟩ := Prod.mk.inj h3; exact absurd hm (notin' a₁)
          · exact ⟨b₁, h3, hR₁⟩
        · rcases h2 k₁ b₁ (by simp [hm]) with ⟨a₁, ha₁⟩ | hR₁
          · rcases List.mem_cons.1 ha₁ with h3 | h3
            · obtain ⟨rfl, -⟩ := Prod.mk.inj h3; exact absurd hm (notin b₁)
            · exact .inl ⟨a₁, h3⟩
          · exact .inr hR₁
    · refine .put ((h2 k' b (by simp)).resolve_left hk) (ih h h'.2 (fun k₁ a₁ hm => ?_) fun k₁ b₁ hm => ?_)
      · obtain ⟨b₁, hb₁, hR₁⟩ := h1 k₁ a₁ hm
        rcases List.mem_cons.1 hb₁ with h3 | h3
        · obtain ⟨rfl, -⟩ := Prod.mk.inj h3; exact absurd ⟨a₁, hm⟩ hk
        · exact ⟨b₁, h3, hR₁⟩
      · exact h2 k₁ b₁ (by simp [hm])

section
variable {V : Type} {D : StatValue V} {hD : s.Is D} {B ok : StatOp D → Prop}

theorem GrownAt.threads {x x' : MapComp (Q := Q) A Ent × Ent} {L L' : List (Qualifier Q × s.Val)}
    (h : GrownAt q s hD B ok (some x) x') (hL : MatchesAt q s x L) (hL' : MatchesAt q s x' L')
    (ho : (L.map (·.1)).Pairwise KeyBefore.QualBefore) (ho' : (L'.map (·.1)).Pairwise KeyBefore.QualBefore) :
    Threads (fun w w' => Grown B ok (w.map (asVal hD)) (asVal hD w')) (L.map (·.2)) (L'.map (·.2)) := by
  refine .of_sorted ho ho' (fun k a ha => ?_) fun k b hb => ?_
  · obtain ⟨h1, h2⟩ := (hL.found k a).1 ha
    have := h k h2
    simp only [Option.bind_some, h1] at this
    cases h3 : foundAt x' ⟨s, k⟩ with
    | none => rw [h3] at this; exact this.elim
    | some b => rw [h3] at this; exact ⟨b, (hL'.found k b).2 ⟨h3, h2⟩, this⟩
  · obtain ⟨h1, h2⟩ := (hL'.found k b).1 hb
    have := h k h2
    simp only [Option.bind_some, h1] at this
    cases h3 : foundAt x ⟨s, k⟩ with
    | none => rw [h3] at this; exact .inr this
    | some a => exact .inl ⟨a, (hL.found k a).2 ⟨h3, h2⟩⟩

theorem GrownAt.threads_none {x' : MapComp (Q := Q) A Ent × Ent} {L' : List (Qualifier Q × s.Val)}
    (h : GrownAt q s hD B ok none x') (hL' : MatchesAt q s x' L') :
    Threads (fun w w' => Grown B ok (w.map (asVal hD)) (asVal hD w')) [] (L'.map (·.2)) := by
  have : ∀ b ∈ L'.map (·.2), Grown B ok none (asVal hD b) := by
    intro b hb
    obtain ⟨⟨k, b⟩, hm, rfl⟩ := List.mem_map.1 hb
    obtain ⟨h1, h2⟩ := (hL'.found k b).1 hm
    have := h k h2
    simp only [Option.bind_none, h1] at this
    exact this
  generalize L'.map (·.2) = l at this
  induction l with
  | nil => exact .nil
  | cons b l ih => exact .put (this b (by simp)) (ih fun b hb => this b (by simp [hb]))

theorem threads_places {l l' : List (MapComp (Q := Q) A Ent × Ent)} (h : Threads (GrownAt q s hD B ok) l l')
    {Ls Ls' : List (List (Qualifier Q × s.Val))} (hL : List.Forall₂ (MatchesAt q s) l Ls)
    (hL' : List.Forall₂ (MatchesAt q s) l' Ls') (ho : ∀ L ∈ Ls, (L.map (·.1)).Pairwise KeyBefore.QualBefore)
    (ho' : ∀ L ∈ Ls', (L.map (·.1)).Pairwise KeyBefore.QualBefore) :
    Threads (fun w w' => Grown B ok (w.map (asVal hD)) (asVal hD w')) (Ls.flatten.map (·.2))
      (Ls'.flatten.map (·.2)) := by
  induction h generalizing Ls Ls' with
  | nil => cases hL; cases hL'; exact .nil
  | keep h _ ih =>
    cases hL with
    | cons m hL =>
      cases hL' with
      | cons m' hL' =>
        rw [List.flatten_cons, List.flatten_cons, List.map_append, List.map_append]
        exact (h.threads m m' (ho _ (by simp)) (ho' _ (by simp))).append
          (ih hL hL' (fun L hL => ho L (by simp [hL])) fun L hL => ho' L (by simp [hL]))
  | put h _ ih =>
    cases hL' with
    | cons m' hL' =>
      rw [List.flatten_cons, List.map_append]
      exact (h.threads_none m').append (ih hL hL' ho fun L hL => ho' L (by simp [hL]))

/-- C123, for every value type: what the second query joins has grown, value by value and in the same order, from what
the first joins; values in between are new. -/
theorem C123_values (h : OnlyMaps J own items) (h' : OnlyMaps J' own' items') (hs : Storable (E.layout s.ty))
    (he : J.world.isStat e = true) (he' : J'.world.isStat e' = true) (v v' : s.Val)
    (hv : J.world.startValue A s = .ok (.val s.ty v)) (hv' : J'.world.startValue A s = .ok (.val s.ty v'))
    (hp : Threads (GrownAt q s hD B ok) (mapPlaces J own items e) (mapPlaces J' own' items' e')) :
    ∃ l l' : List s.Val, Threads (fun w w' => Grown B ok (w.map (asVal hD)) (asVal hD w')) l l' ∧
      (∀ n, J.answer A (n + 1) (.stat e q s) = (joinList s.sv v l >>= fun x => .ok (some x))) ∧
      ∀ n, J'.answer A (n + 1) (.stat e' q s) = (joinList s.sv v' l' >>= fun x => .ok (some x)) := by
  obtain ⟨Ls, h1, h2, h3⟩ := C86_exact h e q s hs he v hv
  obtain ⟨Ls', h1', h2', h3'⟩ := C86_exact h' e' q s hs he' v' hv'
  exact ⟨_, _, threads_places hp h1 h1' h2 h2', h3, h3'⟩

end
section
variable {V : Type} {D : StatValue V} {B ok : StatOp D → Prop} {le : D.Out → D.Out → Prop}

/-- joining values that have grown to a value that has grown -/
theorem Grown.joinList {v v' : V} (h : Grown (D := D) B ok (some v) v') {l l' : List V}
    (hl : Threads (Grown (D := D) B ok) l l') {x x' : V} (hx : joinList D v l = .ok x) (hx' : joinList D v' l' = .ok x') :
    Grown (D := D) B ok (some x) x' := by
  induction hl generalizing v v' with
  | nil => cases hx; cases hx'; exact h
  | keep ha _ ih =>
    obtain ⟨t, t', h1, h2, h3, h4, h5⟩ := h
    obtain ⟨r, r', g1, g2, g3, g4, g5⟩ := ha
    obtain ⟨y, hy, hx⟩ := Res.bind_eq_ok.1 hx
    obtain ⟨y', hy', hx'⟩ := Res.bind_eq_ok.1 hx'
    refine ih ⟨.join t r, .join t' r', .join h1 g1, ⟨h2, g2⟩, ?_, ?_, ?_⟩ hx hx'
    · intro o ho
      rcases List.mem_append.1 ho with ho | ho
      · exact h3 o ho
      · exact g3 o ho
    · change (t'.run >>= fun a => r'.run >>= fun b => D.join a b) = _
      rw [h4, Res.bind_ok, g4, Res.bind_ok, hy']
    · change (t.run >>= fun a => r.run >>= fun b => D.join a b) = _
      simp only at h5 g5
      rw [h5, Res.bind_ok, g5, Res.bind_ok, hy]
  | put ha _ ih =>
    obtain ⟨t, t', h1, h2, h3, h4, h5⟩ := h
    obtain ⟨r, r', g1, g2, g3, g4, g5⟩ := ha
    obtain ⟨y', hy', hx'⟩ := Res.bind_eq_ok.1 hx'
    subst g5
    refine ih ⟨t, .join t' r', .extraJoin h1 g1, ⟨h2, g2⟩, ?_, ?_, h5⟩ hx hx'
    · intro o ho
      rcases List.mem_append.1 ho with ho | ho
      · exact h3 o ho
      · exact g3 o ho
    · change (t'.run >>= fun a => r'.run >>= fun b => D.join a b) = _
      rw [h4, Res.bind_ok, g4, Res.bind_ok, hy']

end

theorem Threads.map {α β γ δ : Type} {R : Option α → β → Prop} {S : Option γ → δ → Prop} {f : α → γ} {g : β → δ}
    (hf : ∀ a b, R a b → S (a.map f) (g b)) {l : List α} {l' : List β} (h : Threads R l l') :
    Threads S (l.map f) (l'.map g) := by
  induction h with
  | nil => exact .nil
  | keep h _ ih => exact .keep (hf _ _ h) ih
  | put h _ ih => exact .put (hf _ _ h) ih

/-- joining and evaluating, read as what it is -/
theorem joinList_from {X : (V : Type) × StatValue V} {V : Type} {D : StatValue V} (h : X = ⟨V, D⟩) (v : X.1)
    (l : List X.1) (w : X.1) (out : X.2.Out) (hw : joinList X.2 v l = .ok w) (ho : X.2.eval w = .ok out) :
    joinList D (asVal h v) (l.map (asVal h)) = .ok (asVal h w) ∧ D.eval (asVal h w) = .ok (asOut h out) := by
  subst h
  have : l.map (asVal (rfl : (⟨V, D⟩ : (V : Type) × StatValue V) = _)) = l := List.map_id l
  rw [this]
  exact ⟨hw, ho⟩

/-- C123: if the sources of two queries are maps, what the second finds in them has grown from what the first finds
(further entries, further operations on entries, maps and children), and so has the start value, then the second query
evaluates to no less. -/
theorem C123_query {V : Type} {D : StatValue V} {hD : s.Is D} {B ok : StatOp D → Prop} {le : D.Out → D.Out → Prop}
    (hm : MonoAlong D B ok le) (h : OnlyMaps J own items) (h' : OnlyMaps J' own' items')
    (hs : Storable (E.layout s.ty)) (he : J.world.isStat e = true) (he' : J'.world.isStat e' = true) (v v' : s.Val)
    (hv : J.world.startValue A s = .ok (.val s.ty v)) (hv' : J'.world.startValue A s = .ok (.val s.ty v'))
    (hst : Grown B ok (some (asVal hD v)) (asVal hD v'))
    (hp : Threads (GrownAt q s hD B ok) (mapPlaces J own items e) (mapPlaces J' own' items' e')) (n n' : Nat)
    (x x' : s.Val) (hx : J.answer A (n + 1) (.stat e q s) = .ok (some x))
    (hx' : J'.answer A (n' + 1) (.stat e' q s) = .ok (some x')) (out out' : s.sv.Out) (ho : s.sv.eval x = .ok out)
    (ho' : s.sv.eval x' = .ok out') : le (asOut hD out) (asOut hD out') := by
  obtain ⟨l, l', h1, h2, h3⟩ := C123_values h h' hs he he' v v' hv hv' hp
  rw [h2] at hx
  rw [h3] at hx'
  obtain ⟨y, hy, hx⟩ := Res.bind_eq_ok.1 hx
  obtain ⟨y', hy', hx'⟩ := Res.bind_eq_ok.1 hx'
  cases hx
  cases hx'
  obtain ⟨a1, a2⟩ := joinList_from hD v l x out hy ho
  obtain ⟨b1, b2⟩ := joinList_from hD v' l' x' out' hy' ho'
  obtain ⟨t, t', g1, g2, g3, g4, g5⟩ := hst.joinList (h1.map (S := Grown (D := D) B ok) fun _ _ h => h) a1 b1
  exact hm t t' g1 g2 g3 _ _ g5 g4 _ _ a2 b2

/-- C123: the value types this holds for, with what may be put in, what may be there, and the order: with bonuses added
to non-negative operands, and with only lower (only upper) bounds added to any operands. -/
theorem C123_types (f : Fmt) (hf : f.Normal) (t : NumTy) (ht : t.ovf ≠ .wrap) (hb : 1 < t.prim.bits) (R : Rounding) :
    MonoAlong (statFloat (Fl.ops f)) (statFloat.Bonus f) (statFloat.NonNeg f) Fl.Le ∧
    MonoAlong (statFloatAdditive (Fl.ops f)) (statFloatAdditive.Bonus f) (statFloatAdditive.NonNeg f) Fl.Le ∧
    MonoAlong (statMult (Fl.ops f)) (statMult.Bonus f) (statMult.NonNeg f) Fl.Le ∧
    MonoAlong (statInt t) (statInt.Bonus t) (statInt.NonNeg t) (fun a b : Int => a ≤ b) ∧
    MonoAlong (statIntFl t f R) (statIntFl.Bonus t f R) (statIntFl.NonNeg t f R) (fun a b : Int => a ≤ b) ∧
    MonoAlong (statFloat (Fl.ops f)) (StatOp.IsBound true) statFloat.okFl Fl.Le ∧
    MonoAlong (statFloat (Fl.ops f)) (StatOp.IsBound false) statFloat.okFl (fun a b => Fl.Le b a) ∧
    MonoAlong (statFloatAdditive (Fl.ops f)) (StatOp.IsBound true) statFloatAdditive.okFl Fl.Le ∧
    MonoAlong (statFloatAdditive (Fl.ops f)) (StatOp.IsBound false) statFloatAdditive.okFl (fun a b => Fl.Le b a) ∧
    MonoAlong (statMult (Fl.ops f)) (StatOp.IsBound true) statMult.okFl Fl.Le ∧
    MonoAlong (statMult (Fl.ops f)) (StatOp.IsBound false) statMult.okFl (fun a b => Fl.Le b a) :=
  ⟨fun _ _ h1 h2 h3 _ _ h4 h5 _ _ h6 h7 => C71_statFloat f hf _ _ h1 h2 h3 _ _ h4 h5 _ _ h6 h7,
    fun _ _ h1 h2 h3 _ _ h4 h5 _ _ h6 h7 => C71_statFloatAdditive f hf _ _ h1 h2 h3 _ _ h4 h5 _ _ h6 h7,
    fun _ _ h1 h2 h3 _ _ h4 h5 _ _ h6 h7 => C71_statMult f hf _ _ h1 h2 h3 _ _ h4 h5 _ _ h6 h7,
    fun _ _ h1 h2 h3 _ _ h4 h5 _ _ h6 h7 => C71_statInt t ht hb _ _ h1 h2 h3 _ _ h4 h5 _ _ h6 h7,
    fun _ _ h1 h2 h3 _ _ h4 h5 _ _ h6 h7 => C71_statIntFloatMul t ht f hf R _ _ h1 h2 h3 _ _ h4 h5 _ _ h6 h7,
    fun _ _ h1 h2 h3 _ _ h4 h5 _ _ h6 h7 => C71_statFloat_bounds f hf true _ _ h1 h2 h3 _ _ h4 h5 _ _ h6 h7,
    fun _ _ h1 h2 h3 _ _ h4 h5 _ _ h6 h7 => C71_statFloat_bounds f hf false _ _ h1 h2 h3 _ _ h4 h5 _ _ h6 h7,
    fun _ _ h1 h2 h3 _ _ h4 h5 _ _ h6 h7 => C71_statFloatAdditive_bounds f hf true _ _ h1 h2 h3 _ _ h4 h5 _ _ h6 h7,
    fun _ _ h1 h2 h3 _ _ h4 h5 _ _ h6 h7 => C71_statFloatAdditive_bounds f hf false _ _ h1 h2 h3 _ _ h4 h5 _ _ h6 h7,
    fun _ _ h1 h2 h3 _ _ h4 h5 _ _ h6 h7 => C71_statMult_bounds f hf true _ _ h1 h2 h3 _ _ h4 h5 _ _ h6 h7,
    fun _ _ h1 h2 h3 _ _ h4 h5 _ _ h6 h7 => C71_statMult_bounds f hf false _ _ h1 h2 h3 _ _ h4 h5 _ _ h6 h7⟩

theorem Tree.Extra.refl {V : Type} {D : StatValue V} {B : StatOp D → Prop} : ∀ t : Tree D, Tree.Extra B t t
  | .dflt => .dflt
  | .base b => .base b
  | .op t o => .op o (refl t)
  | .join l r => .join (refl l) (refl r)

/-- `w` was assembled from operations that satisfy `ok` -/
def Made {V : Type} {D : StatValue V} (ok : StatOp D → Prop) (w : V) : Prop :=
  ∃ t : Tree D, t.NoReset ∧ (∀ o ∈ t.leaves, ok o) ∧ t.run = .ok w

theorem Made.grown {V : Type} {D : StatValue V} {B ok : StatOp D → Prop} {w : V} (h : Made (D := D) ok w) :
    Grown (D := D) B ok (some w) w := by
  obtain ⟨t, h1, h2, h3⟩ := h
  exact ⟨t, t, .refl t, h1, h2, h3, h3⟩

/-- C123 for one more entry in one of the maps (`C89_insert_own`, `C89_insert_child`): if it is made of bonuses only,
it never lowers the result. -/
theorem C123_insert {V : Type} {D : StatValue V} {hD : s.Is D} {B ok : StatOp D → Prop} {le : D.Out → D.Out → Prop}
    (hm : MonoAlong D B ok le) {v w : s.Val} (h : OneMore J J' own items e q s v w)
    (hv : Made (D := D) ok (asVal hD v)) (Ls : List (List (Qualifier Q × s.Val)))
    (hL : List.Forall₂ (MatchesAt q s) (mapPlaces J own items e) Ls)
    (hl : ∀ x ∈ Ls.flatten, Made (D := D) ok (asVal hD x.2)) (hw : Grown (D := D) B ok none (asVal hD w)) (n n' : Nat)
    (x x' : s.Val) (hx : J.answer A (n + 1) (.stat e q s) = .ok (some x))
    (hx' : J'.answer A (n' + 1) (.stat e q s) = .ok (some x')) (out out' : s.sv.Out) (ho : s.sv.eval x = .ok out)
    (ho' : s.sv.eval x' = .ok out') : le (asOut hD out) (asOut hD out') := by
  obtain ⟨a, b, h1, h2⟩ := h
  have h1 := h1 Ls hL
  have all : ∀ y ∈ a ++ b, Made (D := D) ok (asVal hD y) := fun y hy => by
    obtain ⟨z, hz, rfl⟩ := List.mem_map.1 (h1.mem_iff.2 hy)
    exact hl z hz
  have same : ∀ l : List s.Val, (∀ y ∈ l, Made (D := D) ok (asVal hD y)) →
      Threads (Grown (D := D) B ok) (l.map (asVal hD)) (l.map (asVal hD)) := by
    intro l hl
    induction l with
    | nil => exact .nil
    | cons y l ih => exact .keep (hl y (by simp)).grown (ih fun z hz => hl z (by simp [hz]))
  rw [(h2 n).1] at hx
  rw [(h2 n').2] at hx'
  obtain ⟨y, hy, hx⟩ := Res.bind_eq_ok.1 hx
  obtain ⟨y', hy', hx'⟩ := Res.bind_eq_ok.1 hx'
  cases hx
  cases hx'
  obtain ⟨a1, a2⟩ := joinList_from hD v _ x out hy ho
  obtain ⟨b1, b2⟩ := joinList_from hD v _ x' out' hy' ho'
  have th : Threads (Grown (D := D) B ok) ((a ++ b).map (asVal hD)) ((a ++ w :: b).map (asVal hD)) := by
    rw [List.map_append, List.map_append, List.map_cons]
    exact (same a fun y hy => all y (by simp [hy])).append (.put hw (same b fun y hy => all y (by simp [hy])))
  obtain ⟨t, t', g1, g2, g3, g4, g5⟩ := (hv.grown (B := B)).joinList th a1 b1
  exact hm t t' g1 g2 g3 _ _ g5 g4 _ _ a2 b2

/-- values of the type can always be joined and evaluated -/
def NeverFails {V : Type} (D : StatValue V) : Prop :=
  (∀ a b, ∃ c, D.join a b = .ok c) ∧ ∀ a, ∃ out, D.eval a = .ok out

/-- C123: for the float stats the queries return and what they answer can be evaluated, so that the results are there
to be compared. -/
theorem C123_floats_return (f : Fmt) : NeverFails (statFloat (Fl.ops f)) ∧ NeverFails (statFloatAdditive (Fl.ops f)) ∧
    NeverFails (statMult (Fl.ops f)) :=
  ⟨⟨fun _ _ => ⟨_, rfl⟩, fun _ => ⟨_, rfl⟩⟩, ⟨fun _ _ => ⟨_, rfl⟩, fun _ => ⟨_, rfl⟩⟩,
    ⟨fun _ _ => ⟨_, rfl⟩, fun _ => ⟨_, rfl⟩⟩⟩

theorem NeverFails.joinList {V : Type} {D : StatValue V} (h : NeverFails D) (v : V) (l : List V) :
    ∃ w out, joinList D v l = .ok w ∧ D.eval w = .ok out := by
  induction l generalizing v with
  | nil => obtain ⟨out, ho⟩ := h.2 v; exact ⟨v, out, rfl, ho⟩
  | cons x l ih =>
    obtain ⟨c, hc⟩ := h.1 v x
    obtain ⟨w, out, h1, h2⟩ := ih c
    exact ⟨w, out, by rw [BSQ.joinList, hc, Res.bind_ok, h1], h2⟩

/-- C123 for types that never fail: both queries return, and evaluate to results that compare. -/
theorem C123_returns {V : Type} {D : StatValue V} {hD : s.Is D} {B ok : StatOp D → Prop} {le : D.Out → D.Out → Prop}
    (hN : NeverFails D) (hm : MonoAlong D B ok le) (h : OnlyMaps J own items) (h' : OnlyMaps J' own' items')
    (hs : Storable (E.layout s.ty)) (he : J.world.isStat e = true) (he' : J'.world.isStat e' = true) (v v' : s.Val)
    (hv : J.world.startValue A s = .ok (.val s.ty v)) (hv' : J'.world.startValue A s = .ok (.val s.ty v'))
    (hst : Grown B ok (some (asVal hD v)) (asVal hD v'))
    (hp : Threads (GrownAt q s hD B ok) (mapPlaces J own items e) (mapPlaces J' own' items' e')) (n n' : Nat) :
    ∃ (x x' : s.Val) (out out' : s.sv.Out), J.answer A (n + 1) (.stat e q s) = .ok (some x) ∧
      J'.answer A (n' + 1) (.stat e' q s) = .ok (some x') ∧ s.sv.eval x = .ok out ∧ s.sv.eval x' = .ok out' ∧
      le (asOut hD out) (asOut hD out') := by
  obtain ⟨l, l', -, h2, h3⟩ := C123_values h h' hs he he' v v' hv hv' hp
  obtain ⟨w, o, w1, w2⟩ := hN.joinList (asVal hD v) (l.map (asVal hD))
  obtain ⟨w', o', w1', w2'⟩ := hN.joinList (asVal hD v') (l'.map (asVal hD))
  obtain ⟨x, out, x1, x2, x3⟩ := joinList_as hD v l _ _ w1 w2
  obtain ⟨x', out', y1, y2, y3⟩ := joinList_as hD v' l' _ _ w1' w2'
  have x1 : BSQ.joinList s.sv v l = .ok x := x1
  have y1 : BSQ.joinList s.sv v' l' = .ok x' := y1
  have r1 : J.answer A (n + 1) (.stat e q s) = .ok (some x) := by rw [h2, x1]; rfl
  have r2 : J'.answer A (n' + 1) (.stat e' q s) = .ok (some x') := by rw [h3, y1]; rfl
  exact ⟨x, x', out, out', r1, r2, x2, y2,
    C123_query hm h h' hs he he' v v' hv hv' hst hp n n' x x' r1 r2 out out' x2 y2⟩

/-! ### The hypotheses are met -/

/-- `StatFloat<f32>` -/
abbrev grownD : StatValue (StatFloat Fl) := statFloat (Fl.ops .f32)

/-- half, times three: in the map of an entity; nothing in that of its child -/
def grownBefore : Joined (solo grownD) (BitVec 8) Nat := soloWorld (D := grownD) (.fin (1 / 2)) [.mul (.fin 3)] []
/-- then there is a lower bound in the one, and a quarter in the other -/
def grownAfter : Joined (solo grownD) (BitVec 8) Nat :=
  soloWorld (D := grownD) (.fin (1 / 2)) [.mul (.fin 3), .min (.fin 2)] [.add (.fin (1 / 4))]

/-- they come to 3/2 and 9/4 -/
example : (grownBefore.answer (soloAddr grownD) 1 (.stat 0 demoQ (soloStat grownD)) >>= fun v => match v with
      | some v => grownD.eval v
      | none => .error .panic) = .ok (.fin (3 / 2) : Fl) ∧
    (grownAfter.answer (soloAddr grownD) 1 (.stat 0 demoQ (soloStat grownD)) >>= fun v => match v with
      | some v => grownD.eval v
      | none => .error .panic) = .ok (.fin (9 / 4) : Fl) := by
  constructor <;> decide +kernel

theorem PMap.runFrom_untouched {E : Env} {Q : Type} [DecidableEq Q] {k : Key E Q} (h : List (MapOp E Q))
    (hk : ∀ o ∈ h, ¬ o.Touches k) {a a' : PMap E Q} (ha : a.runFrom h = .ok a') : a' k = a k := by
  induction h generalizing a with
  | nil => cases ha; rfl
  | cons o h ih =>
    obtain ⟨b, hb, ha⟩ := Res.bind_eq_ok.1 ha
    rw [ih (fun o ho => hk o (by simp [ho])) ha, PMap.step_untouched (hk o (by simp)) hb]

/-- nothing is found under a key which no call touched -/
theorem foundAt_untouched (ops : Ent → Option (List (MapOp E Q))) (e : Ent) {k : Key E Q}
    (hk : ∀ h, ops e = some h → ∀ o ∈ h, ¬ o.Touches k) : foundAt (MapComp.ofOps (A := A) ops, e) k = none := by
  have : (MapComp.ofOps (A := A) ops).stored e k = none := by
    change ((ops e).bind fun h => (PMap.run h).toOption).getD PMap.empty k = none
    cases ho : ops e with
    | none => rfl
    | some h =>
      rw [Option.bind_some]
      cases hr : PMap.run h with
      | error x => rfl
      | ok a => exact PMap.runFrom_untouched h (hk h ho) hr
  unfold foundAt
  split
  · exact this
  · rfl

theorem grown_own_ne {b : grownD.BaseT} {os : List (StatOp grownD)} {k : Qualifier (BitVec 8)} (hk : k ≠ ⟨0, 0⟩) :
    foundAt (MapComp.ofOps (A := soloAddr grownD) (soloOwn b os), 0) ⟨soloStat grownD, k⟩ = none := by
  refine foundAt_untouched _ _ fun h hh o ho ht => hk ?_
  cases hh
  rcases List.mem_cons.1 ho with rfl | ho
  · exact congrArg Key.qual ht
  · obtain ⟨o', -, rfl⟩ := List.mem_map.1 ho
    exact congrArg Key.qual ht

theorem grown_item_ne {os : List (StatOp grownD)} {k : Qualifier (BitVec 8)} (hk : k ≠ ⟨0, 0⟩) :
    foundAt (MapComp.ofOps (A := soloAddr grownD) (soloItem os), 1) ⟨soloStat grownD, k⟩ = none := by
  refine foundAt_untouched _ _ fun h hh o ho ht => hk ?_
  cases hh
  obtain ⟨o', -, rfl⟩ := List.mem_map.1 ho
  exact congrArg Key.qual ht

theorem grown_nonNeg : statFloat.NonNeg .f32 (.base (.fin (1 / 2) : Fl)) ∧ statFloat.NonNeg .f32 (.mul (.fin 3 : Fl)) ∧
    statFloat.NonNeg .f32 (.add (.fin (1 / 4) : Fl)) := by
  refine ⟨⟨?_, 1, -1, by norm_num, by decide, by decide, by rw [abs_of_pos (by norm_num)]; norm_num [Fmt.f32]⟩,
    ⟨?_, 3, 0, by norm_num, by decide, by decide, by rw [abs_of_pos (by norm_num)]; norm_num [Fmt.f32]⟩,
    ⟨?_, 1, -2, by norm_num, by decide, by decide, by rw [abs_of_pos (by norm_num)]; norm_num [Fmt.f32]⟩⟩
  · change (0 : ℚ) ≤ 1 / 2; norm_num
  · change (0 : ℚ) ≤ 3; norm_num
  · change (0 : ℚ) ≤ 1 / 4; norm_num

/-- C123 applies to them -/
example : ∃ (x x' : StatFloat Fl) (out out' : Fl),
    grownBefore.answer (soloAddr grownD) 1 (.stat 0 demoQ (soloStat grownD)) = .ok (some x) ∧
    grownAfter.answer (soloAddr grownD) 1 (.stat 0 demoQ (soloStat grownD)) = .ok (some x') ∧
    grownD.eval x = .ok out ∧ grownD.eval x' = .ok out' ∧ Fl.Le out out' := by
  have hD : (soloStat grownD).Is grownD := rfl
  refine C123_returns (A := soloAddr grownD) (s := soloStat grownD) (hD := hD) (C123_floats_return .f32).1
    (C123_types .f32 Fmt.normal_f32 ⟨.i32, .prim, .debug⟩ (by decide) (by decide) .floor).1
    (soloWorld_only _ _ _) (soloWorld_only _ _ _) (by decide) rfl rfl grownD.default grownD.default rfl rfl
    (Made.grown ⟨.dflt, trivial, by simp [Tree.leaves], rfl⟩) ?_ 0 0
  refine .keep ?_ (.keep ?_ .nil)
  · intro k _
    by_cases hk : k = ⟨0, 0⟩
    · subst hk
      refine ⟨.op (.base (.fin (1 / 2) : Fl)) (.mul (.fin 3 : Fl)),
        .op (.op (.base (.fin (1 / 2) : Fl)) (.mul (.fin 3 : Fl))) (.min (.fin 2 : Fl)), .extra _ (.refl _) trivial,
        ⟨⟨trivial, id⟩, id⟩, ?_, rfl, rfl⟩
      intro o ho
      simp only [Tree.leaves, List.cons_append, List.nil_append, List.mem_cons, List.not_mem_nil, or_false] at ho
      rcases ho with rfl | rfl | rfl
      exacts [grown_nonNeg.1, grown_nonNeg.2.1, trivial]
    · rw [Option.bind_some, grown_own_ne hk, grown_own_ne hk]
      trivial
  · intro k _
    by_cases hk : k = ⟨0, 0⟩
    · subst hk
      refine ⟨.dflt, .op .dflt (.add (.fin (1 / 4) : Fl)), .extra _ .dflt ?_, ⟨trivial, id⟩, ?_, rfl, rfl⟩
      · change (0 : ℚ) ≤ 1 / 4
        norm_num
      · intro o ho
        simp only [Tree.leaves, List.nil_append, List.mem_cons, List.not_mem_nil, or_false] at ho
        subst ho
        exact grown_nonNeg.2.2
    · rw [Option.bind_some, grown_item_ne hk, grown_item_ne hk]
      trivial

end BSQ
