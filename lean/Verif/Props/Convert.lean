import Verif.Spec.Convert
import Verif.Props.MapQuery
import Verif.Props.Cast
import Verif.Props.Qualifier
/-!
# C107, C108: exact queries beside aggregate queries, and the effect they are documented for
-/
namespace BSQ
set_option linter.unusedSectionVars false
open FlagSpec

/-! ## C107 -/
section
variable {Q : Type} [BitFlags Q] [FlagSet Q]

/-- **C107** is false: an exact query without `any_of` (flag 0 stands for magic) finds a modifier for elemental magic
(flags 1 and 2 stand for fire and ice), which does not apply to a query for magic. -/
theorem C107_refuted : ∃ q : Qualifier (BitVec 3),
    q.qualifiesAs (.exact 0#3 1#3) = true ∧ q.qualifiesAs (.aggregate (0#3 ||| 1#3)) = false :=
  ⟨⟨6#3, 1#3⟩, by decide, by decide⟩

/-- C107, which modifiers found by an exact query apply to the aggregate query for the same flags: if the exact
query names some flag in `any_of`, all; otherwise, those without `any_of` and those whose `any_of` meets the flags. -/
theorem C107_iff (a b : Q) (q : Qualifier Q) (h : q.qualifiesAs (.exact a b) = true) :
    q.qualifiesAs (.aggregate (BitFlags.bor a b)) = true ↔
      (∃ f, FlagSet.has a f) ∨ (∀ f, ¬ FlagSet.has q.anyOf f) ∨
      ∃ f, FlagSet.has q.anyOf f ∧ FlagSet.has b f := by
  rw [exact_iff] at h
  rw [aggregate_iff]
  constructor
  · rintro ⟨-, h1 | ⟨f, h1, h2⟩⟩
    · exact .inr (.inl h1)
    · rcases (FlagSet.has_or _ _ _).1 h2 with h3 | h3
      · exact .inl ⟨f, h3⟩
      · exact .inr (.inr ⟨f, h1, h3⟩)
  · intro h1
    refine ⟨fun f hf => (FlagSet.has_or _ _ _).2 (.inr ((h.1 f).1 hf)), ?_⟩
    rcases h1 with ⟨f, hf⟩ | h1 | ⟨f, h1, h2⟩
    · exact .inr ⟨f, h.2 f hf, (FlagSet.has_or _ _ _).2 (.inl hf)⟩
    · exact .inl h1
    · exact .inr ⟨f, h1, (FlagSet.has_or _ _ _).2 (.inr h2)⟩

/-- C107 for exact queries with some flag in `any_of`, in any aggregate query for at least these flags -/
theorem C107_partial (a b x : Q) (ha : ∃ f, FlagSet.has a f)
    (hx : ∀ f, FlagSet.has a f ∨ FlagSet.has b f → FlagSet.has x f) (q : Qualifier Q)
    (h : q.qualifiesAs (.exact a b) = true) : q.qualifiesAs (.aggregate x) = true :=
  C03_aggregate_monotone q (BitFlags.bor a b) x (fun f hf => hx f ((FlagSet.has_or _ _ _).1 hf))
    ((C107_iff a b q h).2 (.inl ha))

/-- C107, the other way around: some modifier is found by both an exact and an aggregate query exactly if the latter
has all flags of `all_of`, and has some flag if `any_of` has one.  In all other cases no modifier is counted in
both. -/
theorem C107_both_iff (a b x : Q) :
    (∃ q : Qualifier Q, q.qualifiesAs (.exact a b) = true ∧ q.qualifiesAs (.aggregate x) = true) ↔
      (∀ f, FlagSet.has b f → FlagSet.has x f) ∧ ((∀ f, ¬ FlagSet.has a f) ∨ ∃ f, FlagSet.has x f) := by
  constructor
  · rintro ⟨q, h1, h2⟩
    rw [exact_iff] at h1
    rw [aggregate_iff] at h2
    refine ⟨fun f hf => h2.1 f ((h1.1 f).2 hf), ?_⟩
    rcases h2.2 with h3 | ⟨f, -, h3⟩
    · exact .inl fun f hf => h3 f (h1.2 f hf)
    · exact .inr ⟨f, h3⟩
  · rintro ⟨h1, h2 | ⟨f, hf⟩⟩
    · refine ⟨⟨a, b⟩, (exact_iff _ _ _).2 ⟨fun _ => .rfl, fun _ h => h⟩, (aggregate_iff _ _).2 ⟨h1, .inl h2⟩⟩
    · exact ⟨⟨BitFlags.bor a x, b⟩,
        (exact_iff _ _ _).2 ⟨fun _ => .rfl, fun _ h => (FlagSet.has_or _ _ _).2 (.inl h)⟩,
        (aggregate_iff _ _).2 ⟨h1, .inr ⟨f, (FlagSet.has_or _ _ _).2 (.inr hf), hf⟩⟩⟩

/-- `Exact { fire, magic }` finds elemental magic, which applies to fire magic -/
example : (⟨6#3, 1#3⟩ : Qualifier (BitVec 3)).qualifiesAs (.aggregate 3#3) = true :=
  C107_partial 2#3 1#3 3#3 ⟨(⟨1, by decide⟩ : Fin 3), show (2#3)[1] = true by decide⟩
    (show ∀ f : Fin 3, (2#3)[f.val] = true ∨ (1#3)[f.val] = true → (3#3)[f.val] = true by decide) _ (by decide)
/-- elemental damage is not found by the exact query for magic, and nothing is found by that and by queries for fire -/
example : ¬ ∃ q : Qualifier (BitVec 3), q.qualifiesAs (.exact 0#3 1#3) = true ∧ q.qualifiesAs (.aggregate 2#3) = true :=
  fun h => absurd (((C107_both_iff _ _ _).1 h).1 (show FlagSet.Flag (BitVec 3) from (⟨0, by decide⟩ : Fin 3)) (show (1#3)[0] = true by decide))
    (show ¬ (2#3)[0] = true by decide)
end

/-! ## C108 -/

variable {E : Env} {Q Ent : Type} [BitFlags Q] [FlagSet Q] [Ord Q] [Std.TransOrd Q] [Std.LawfulEqOrd Q]
  {A : Addr E} {J : Joined E Q Ent} {c : Conversion E Q Ent} {own₁ own₂ items : List (MapComp (Q := Q) A Ent)}

theorem own_calls (own : List (MapComp (Q := Q) A Ent)) (e : Ent) (q : QualifierQuery Q) :
    (own.map MapComp.stream).flatMap (fun st => st.calls e q [e]) =
      (own.map (·, e)).flatMap (placeCalls e q) := by
  induction own with
  | nil => rfl
  | cons c own ih =>
    rw [List.map_cons, List.flatMap_cons, List.map_cons, List.flatMap_cons, MapComp.calls_eq, ih]
    simp

theorem item_calls (items : List (MapComp (Q := Q) A Ent)) (e : Ent) (q : QualifierQuery Q) (es : List Ent) :
    (items.map MapComp.stream).flatMap (fun st => st.calls e q es) =
      (items.flatMap fun c => es.map (c, ·)).flatMap (placeCalls e q) := by
  induction items with
  | nil => rfl
  | cons c items ih =>
    rw [List.map_cons, List.flatMap_cons, ih, MapComp.calls_eq, List.flatMap_cons, List.flatMap_append]

/-- the call of the effect -/
def Conversion.call (A : Addr E) (c : Conversion E Q Ent) (e : Ent) (q : QualifierQuery Q) : Call E Q Ent :=
  (c.stream A).stream e () q

theorem MapsAnd.statCalls (h : MapsAnd J c own₁ own₂ items) (e : Ent) (he : c.on e = true)
    (q : QualifierQuery Q) :
    J.statCalls e q = (own₁.map (·, e)).flatMap (placeCalls e q) ++
      c.call A e q :: (mapPlaces J own₂ items e).flatMap (placeCalls e q) := by
  unfold Joined.statCalls mapPlaces
  rw [h.globals, h.comp, h.child, h.rel]
  simp only [List.map_nil, List.nil_append, List.flatMap_nil, List.append_nil, List.flatMap_append,
    List.flatMap_cons, own_calls, item_calls]
  have : (c.stream A).calls e q [e] = [c.call A e q] := by
    simp only [CStream.calls, Conversion.stream, he, if_true, List.filterMap_cons, List.filterMap_nil]
    rfl
  rw [this]
  simp

theorem Conversion.call_off (e : Ent) (q : QualifierQuery Q) (hq : c.applies q = false) (o : Oracle E Q Ent)
    (p : Pair E) : (c.call A e q p).eval o = .ok p := by
  simp [Conversion.call, Conversion.stream, hq, Prog.eval]

/-- what the effect makes of a value, given the answer to its question -/
def Conversion.gain (c : Conversion E Q Ent) (x : (E.asEntry c.stat).Val) :
    Res (Option (E.asEntry c.stat).Val) → Res (E.asEntry c.stat).Val
  | .error e => .error e
  | .ok none => .error .panic
  | .ok (some w) => (E.asEntry c.stat).sv.eval w >>= fun out => (E.asEntry c.stat).sv.add x (c.share out)

theorem Conversion.call_on (e : Ent) (q : QualifierQuery Q) (hq : c.applies q = true)
    (hT : Storable (E.statLayout c.T)) (o : Oracle E Q Ent) (v : (E.asEntry c.stat).Val) :
    (c.call A e q ⟨E.asEntry c.stat, .val (E.asEntry c.stat).ty v⟩).eval o =
      (c.gain v (o (.stat e (.exact c.anyOf c.allOf) (E.asEntry c.stat))) >>= fun v' =>
        .ok ⟨E.asEntry c.stat, .val (E.asEntry c.stat).ty v'⟩) := by
  have h : (⟨E.asEntry c.stat, .val (E.asEntry c.stat).ty v⟩ : Pair E).isThenCast A c.stat = .ok (some v) :=
    (C36_isThenCast_partial A c.stat hT).1 v
  simp only [Conversion.call, Conversion.stream, hq, if_true, h, Prog.lift, Prog.bind, Prog.eval]
  rcases ho : o (.stat e (.exact c.anyOf c.allOf) (E.asEntry c.stat)) with x | (_ | w)
  · rfl
  · rfl
  · change Prog.eval o (Prog.lift ((E.asEntry c.stat).sv.eval w >>= fun out => _)) =
      (((E.asEntry c.stat).sv.eval w >>= fun out => _) >>= _)
    cases h1 : (E.asEntry c.stat).sv.eval w with
    | error x => rfl
    | ok out =>
      change Prog.eval o (Prog.lift ((E.asEntry c.stat).sv.add v (c.share out) >>= fun v' => _)) =
        ((E.asEntry c.stat).sv.add v (c.share out) >>= _)
      cases h2 : (E.asEntry c.stat).sv.add v (c.share out) with
      | error x => rfl
      | ok v' => rfl

/-- what the querier does with the calls of an entity that carries maps and the effect -/
theorem MapsAnd.answer (h : MapsAnd J c own₁ own₂ items) (e : Ent) (he : c.on e = true) (q : QualifierQuery Q)
    (s : StatInst E) (hs : Storable (E.layout s.ty)) (hst : J.world.isStat e = true) (v : s.Val)
    (hv : J.world.startValue A s = .ok (.val s.ty v)) (step : Nat → s.Val → Res s.Val)
    (hc : ∀ n x, (c.call A e q ⟨s, .val s.ty x⟩).eval (J.answer A n) =
      (step n x >>= fun y => .ok ⟨s, .val s.ty y⟩)) :
    ∃ L₁ L₂ : List (List (Qualifier Q × s.Val)),
      List.Forall₂ (MatchesAt q s) (own₁.map (·, e)) L₁ ∧
      List.Forall₂ (MatchesAt q s) (mapPlaces J own₂ items e) L₂ ∧
      (∀ L ∈ L₁ ++ L₂, (L.map (·.1)).Pairwise KeyBefore.QualBefore) ∧
      ∀ n, J.answer A (n + 1) (.stat e q s) =
        (joinList s.sv v (L₁.flatten.map (·.2)) >>= fun x => step n x >>= fun y =>
          joinList s.sv y (L₂.flatten.map (·.2)) >>= fun z => .ok (some z)) := by
  obtain ⟨L₁, h1, l₁, h2, h3⟩ := places_listed (own₁.map (·, e)) e q s hs
  obtain ⟨L₂, h4, l₂, h5, h6⟩ := places_listed (mapPlaces J own₂ items e) e q s hs
  refine ⟨L₁, L₂, h1.1, h4.1, fun L hL => ?_, fun n => ?_⟩
  · rcases List.mem_append.1 hL with hL | hL
    · exact h1.2 L hL
    · exact h4.2 L hL
  rw [Joined.answer_body hs hst, Joined.body, hv, Res.bind_ok, h.statCalls e he, runCalls_append,
    runCalls_joins (h3 (J.answer A n)), ← h2, ← h5]
  cases joinList s.sv v l₁.flatten with
  | error x => rfl
  | ok x =>
    simp only [Res.bind_ok, runCalls]
    rw [hc]
    cases step n x with
    | error x => rfl
    | ok y =>
      simp only [Res.bind_ok]
      rw [runCalls_joins (h6 (J.answer A n))]
      cases joinList s.sv y l₂.flatten with
      | error x => rfl
      | ok z =>
        simp only [Res.bind_ok]
        change (Buf.val s.ty z).read s.ty >>= _ = _
        rw [Buf.read_val hs]
        rfl

/-- C108, the exact query itself: the effect does not take part in it, so it comes to the start value joined with
what is stored under exactly matching qualifiers. -/
theorem C108_source (h : MapsAnd J c own₁ own₂ items) (e : Ent) (he : c.on e = true)
    (hx : c.applies (.exact c.anyOf c.allOf) = false)
    (hs : Storable (E.layout (E.asEntry c.stat).ty)) (hst : J.world.isStat e = true) (v : (E.asEntry c.stat).Val)
    (hv : J.world.startValue A (E.asEntry c.stat) = .ok (.val (E.asEntry c.stat).ty v)) :
    ∃ Ls : List (List (Qualifier Q × (E.asEntry c.stat).Val)),
      List.Forall₂ (MatchesAt (.exact c.anyOf c.allOf) (E.asEntry c.stat)) (mapPlaces J (own₁ ++ own₂) items e) Ls ∧
      ∀ n, J.answer A (n + 1) (.stat e (.exact c.anyOf c.allOf) (E.asEntry c.stat)) =
        (joinList (E.asEntry c.stat).sv v (Ls.flatten.map (·.2)) >>= fun x => .ok (some x)) := by
  obtain ⟨L₁, L₂, h1, h2, -, h3⟩ := h.answer e he (.exact c.anyOf c.allOf) (E.asEntry c.stat) hs hst v hv
    (fun _ x => .ok x) (fun n x => Conversion.call_off e _ hx _ _)
  refine ⟨L₁ ++ L₂, ?_, fun n => ?_⟩
  · unfold mapPlaces at h2 ⊢
    rw [List.map_append, List.append_assoc]
    exact List.rel_append h1 h2
  · rw [h3 n, List.flatten_append, List.map_append, joinList_append]
    cases joinList (E.asEntry c.stat).sv v (L₁.flatten.map (·.2)) <;> rfl

/-- **C108**, for every value type: a query that the effect applies to comes to the start value joined with what is
stored under qualifiers that match it, plus the share of what the exact query evaluates to: the start value joined
with what is stored under qualifiers that match that one. -/
theorem C108_value (h : MapsAnd J c own₁ own₂ items) (e : Ent) (he : c.on e = true)
    (hx : c.applies (.exact c.anyOf c.allOf) = false) (q : QualifierQuery Q) (hq : c.applies q = true)
    (hs : Storable (E.layout (E.asEntry c.stat).ty)) (hT : Storable (E.statLayout c.T))
    (hst : J.world.isStat e = true) (v : (E.asEntry c.stat).Val)
    (hv : J.world.startValue A (E.asEntry c.stat) = .ok (.val (E.asEntry c.stat).ty v)) :
    ∃ L₁ L₂ Ls : List (List (Qualifier Q × (E.asEntry c.stat).Val)),
      List.Forall₂ (MatchesAt q (E.asEntry c.stat)) (own₁.map (·, e)) L₁ ∧
      List.Forall₂ (MatchesAt q (E.asEntry c.stat)) (mapPlaces J own₂ items e) L₂ ∧
      List.Forall₂ (MatchesAt (.exact c.anyOf c.allOf) (E.asEntry c.stat)) (mapPlaces J (own₁ ++ own₂) items e) Ls ∧
      ∀ n, J.answer A (n + 2) (.stat e q (E.asEntry c.stat)) =
        (joinList (E.asEntry c.stat).sv v (L₁.flatten.map (·.2)) >>= fun x =>
          joinList (E.asEntry c.stat).sv v (Ls.flatten.map (·.2)) >>= fun w =>
          (E.asEntry c.stat).sv.eval w >>= fun out =>
          (E.asEntry c.stat).sv.add x (c.share out) >>= fun y =>
          joinList (E.asEntry c.stat).sv y (L₂.flatten.map (·.2)) >>= fun z => .ok (some z)) := by
  obtain ⟨Ls, h1, h2⟩ := C108_source h e he hx hs hst v hv
  obtain ⟨L₁, L₂, h3, h4, -, h5⟩ := h.answer e he q (E.asEntry c.stat) hs hst v hv
    (fun n x => c.gain x (J.answer A n (.stat e (.exact c.anyOf c.allOf) (E.asEntry c.stat))))
    (fun n x => Conversion.call_on e q hq hT _ x)
  refine ⟨L₁, L₂, Ls, h3, h4, h1, fun n => ?_⟩
  rw [h5 (n + 1), h2 n]
  cases joinList (E.asEntry c.stat).sv v (L₁.flatten.map (·.2)) with
  | error x => rfl
  | ok x =>
    cases joinList (E.asEntry c.stat).sv v (Ls.flatten.map (·.2)) with
    | error x => rfl
    | ok w =>
      change (((E.asEntry c.stat).sv.eval w >>= fun out => _) >>= _) = ((E.asEntry c.stat).sv.eval w >>= _)
      cases (E.asEntry c.stat).sv.eval w <;> rfl

/-- C108, an effect that applies to its own exact query never comes to an end, unless joining what is before it
fails -/
theorem C108_endless (h : MapsAnd J c own₁ own₂ items) (e : Ent) (he : c.on e = true)
    (hx : c.applies (.exact c.anyOf c.allOf) = true)
    (hs : Storable (E.layout (E.asEntry c.stat).ty)) (hT : Storable (E.statLayout c.T))
    (hst : J.world.isStat e = true) (v : (E.asEntry c.stat).Val)
    (hv : J.world.startValue A (E.asEntry c.stat) = .ok (.val (E.asEntry c.stat).ty v))
    (hj : ∀ Ls : List (List (Qualifier Q × (E.asEntry c.stat).Val)),
      List.Forall₂ (MatchesAt (.exact c.anyOf c.allOf) (E.asEntry c.stat)) (own₁.map (·, e)) Ls →
      ∃ z, joinList (E.asEntry c.stat).sv v (Ls.flatten.map (·.2)) = .ok z) (n : Nat) :
    J.answer A n (.stat e (.exact c.anyOf c.allOf) (E.asEntry c.stat)) = .error .fuel := by
  obtain ⟨L₁, L₂, h1, -, -, h5⟩ := h.answer e he (.exact c.anyOf c.allOf) (E.asEntry c.stat) hs hst v hv
    (fun n x => c.gain x (J.answer A n (.stat e (.exact c.anyOf c.allOf) (E.asEntry c.stat))))
    (fun n x => Conversion.call_on e _ hx hT _ x)
  induction n with
  | zero => rfl
  | succ n ih =>
    obtain ⟨x, hx⟩ := hj L₁ h1
    rw [h5 n, hx, ih]
    rfl

/-- **C108** for what is stored in maps: nothing is counted both by a query that does not ask for all flags of the
exact query (physical damage is not magic damage) and by the share.  Not so for a registered default, see
`C108_default_twice`. -/
theorem C108_once_partial (a b x : Q) (hx : ∃ f, FlagSet.has b f ∧ ¬ FlagSet.has x f) (s : StatInst E)
    (pl : List (MapComp (Q := Q) A Ent × Ent)) (L L' : List (List (Qualifier Q × s.Val)))
    (h : List.Forall₂ (MatchesAt (.aggregate x) s) pl L) (h' : List.Forall₂ (MatchesAt (.exact a b) s) pl L') :
    ∀ l ∈ L, ∀ l' ∈ L', ∀ k v v', (k, v) ∈ l → (k, v') ∉ l' := by
  have key : ∀ k : Qualifier Q, Matches k (.aggregate x) → ¬ Matches k (.exact a b) := fun k h1 h2 => by
    obtain ⟨f, hf, hn⟩ := hx
    exact hn (h1.1 f ((h2.1 f).2 hf))
  have m : ∀ {q : QualifierQuery Q} {L : List (List (Qualifier Q × s.Val))}, List.Forall₂ (MatchesAt q s) pl L →
      ∀ l ∈ L, ∀ k v, (k, v) ∈ l → Matches k q := by
    intro q L h0
    clear h h'
    induction h0 with
    | nil => intro l hl; cases hl
    | cons h1 _ ih =>
      intro l hl k v hk
      rcases List.mem_cons.1 hl with rfl | hl
      · exact ((h1.mem k v).1 hk).2.2
      · exact ih l hl k v hk
  exact fun l hl l' hl' k v v' h1 h2 => key k (m h l hl k v h1) (m h' l' hl' k v' h2)

/-! ### the closed form for integers -/

section
variable {X : (V : Type) × StatValue V} {V : Type} {D : StatValue V} (h : X = ⟨V, D⟩)
/-- an addend read as what it is -/
def asAdd (x : X.2.AddT) : D.AddT := cast (congrArg (fun x : (V : Type) × StatValue V => x.2.AddT) h) x
/-- a result given for what it is -/
def ofOut (x : D.Out) : X.2.Out := cast (congrArg (fun x : (V : Type) × StatValue V => x.2.Out) h).symm x

theorem convert_as (v : X.1) (share : X.2.Out → X.2.AddT) (l₁ l₂ lx : List X.1) (src : D.Out) (w : V) (out : D.Out)
    (h1 : (joinList D (asVal h v) (lx.map (asVal h)) >>= D.eval) = .ok src)
    (h2 : (joinList D (asVal h v) (l₁.map (asVal h)) >>= fun x => D.add x (asAdd h (share (ofOut h src))) >>= fun y =>
      joinList D y (l₂.map (asVal h))) = .ok w) (h3 : D.eval w = .ok out) :
    ∃ w' out', (joinList X.2 v l₁ >>= fun x => joinList X.2 v lx >>= fun w => X.2.eval w >>= fun o =>
      X.2.add x (share o) >>= fun y => joinList X.2 y l₂ >>= fun z => .ok (some z)) = .ok (some w') ∧
      X.2.eval w' = .ok out' ∧ asOut h out' = out := by
  subst h
  have e : ∀ l : List V, l.map (asVal (rfl : (⟨V, D⟩ : (V : Type) × StatValue V) = _)) = l := List.map_id
  rw [e] at h1 h2
  rw [e] at h2
  change (joinList D v lx >>= D.eval) = .ok src at h1
  change (joinList D v l₁ >>= fun x => D.add x (share src) >>= fun y => joinList D y l₂) = .ok w at h2
  refine ⟨w, out, ?_, h3, rfl⟩
  change (joinList D v l₁ >>= fun x => joinList D v lx >>= fun w => D.eval w >>= fun o =>
      D.add x (share o) >>= fun y => joinList D y l₂ >>= fun z => .ok (some z)) = .ok (some w)
  cases hx : joinList D v l₁ with
  | error x => rw [hx] at h2; cases h2
  | ok x =>
    cases hl : joinList D v lx with
    | error x => rw [hl] at h1; cases h1
    | ok y =>
      rw [hl, Res.bind_ok] at h1
      rw [hx, Res.bind_ok] at h2
      simp only [Res.bind_ok, h1]
      cases ha : D.add x (share src) with
      | error x => rw [ha] at h2; cases h2
      | ok z =>
        rw [ha, Res.bind_ok] at h2
        simp only [Res.bind_ok, h2]
end

theorem SmallInts.merge {t : NumTy} {v w : StatInt} {l : List StatInt} (h : SmallInts t (v :: w :: l)) (m M : Int) :
    SmallInts t (⟨v.addend + w.addend, m, M, v.mult * w.mult⟩ :: l) := by
  obtain ⟨h1, h2, h3, h4, h5⟩ := h
  have s0 : 0 ≤ (l.map fun v => |v.addend|).sum := List.sum_nonneg (by simp)
  have p0 : 1 ≤ (l.map fun v => max 1 |v.mult|).prod := one_le_magnitudes l
  simp only [List.map_cons, List.sum_cons, List.prod_cons] at h3 h4 h5
  have a1 := abs_add_le v.addend w.addend
  have m1 : |v.mult * w.mult| = |v.mult| * |w.mult| := abs_mul _ _
  have m2 : max 1 |v.mult * w.mult| ≤ max 1 |v.mult| * max 1 |w.mult| := by
    rw [m1]
    refine max_le ?_ (mul_le_mul (le_max_right _ _) (le_max_right _ _) (abs_nonneg _) (by simp))
    nlinarith [le_max_left 1 |v.mult|, le_max_left 1 |w.mult|]
  have p1 : 0 < max 1 |v.mult| * max 1 |w.mult| := by positivity
  have hv1 := h1 v (by simp)
  have hw1 := h1 w (by simp)
  have hv2 := h2 v (by simp)
  have hw2 := h2 w (by simp)
  have hu : t.prim.signed = false → t.prim.lo = 0 := fun h => by simp [IntTy.lo, h]
  have ra : t.prim.InRange (v.addend + w.addend) := by
    refine IntTy.inRange_of_abs (by linarith) fun hs => ?_
    have := hu hs
    have := hv1.1
    have := hw1.1
    omega
  have rm : t.prim.InRange (v.mult * w.mult) := by
    refine IntTy.inRange_of_abs ?_ fun hs => ?_
    · refine le_trans (le_trans (le_max_right 1 _) m2) (le_trans ?_ h4)
      rw [← mul_assoc]
      exact le_mul_of_one_le_right p1.le p0
    · have := hu hs
      exact mul_nonneg (by have := hv2.1; omega) (by have := hw2.1; omega)
  constructor
  · intro x hx
    rcases List.mem_cons.1 hx with rfl | hx
    · exact ra
    · exact h1 x (by simp [hx])
  · intro x hx
    rcases List.mem_cons.1 hx with rfl | hx
    · exact rm
    · exact h2 x (by simp [hx])
  · simp only [List.map_cons, List.sum_cons]
    linarith
  · simp only [List.map_cons, List.prod_cons]
    refine le_trans ?_ h4
    rw [← mul_assoc]
    exact mul_le_mul_of_nonneg_right m2 (by linarith)
  · simp only [List.map_cons, List.sum_cons, List.prod_cons]
    refine le_trans ?_ h5
    rw [← mul_assoc (max 1 |v.mult|)]
    refine mul_le_mul (by linarith) (mul_le_mul_of_nonneg_right m2 (by linarith)) (by positivity) (by positivity)

/-- joining, adding, joining -/
theorem statInt.join_add_join (t : NumTy) (k : Int) (l₁ l₂ : List StatInt) (v : StatInt)
    (h : SmallInts t (v :: ⟨k, 0, 0, 1⟩ :: (l₁ ++ l₂))) :
    (joinList (statInt t) v l₁ >>= fun x => (statInt t).add x k >>= fun y => joinList (statInt t) y l₂) = .ok
      { addend := v.addend + k + ((l₁ ++ l₂).map (·.addend)).sum
        min := largest v.min ((l₁ ++ l₂).map (·.min))
        max := smallest v.max ((l₁ ++ l₂).map (·.max))
        mult := v.mult * ((l₁ ++ l₂).map (·.mult)).prod } := by
  induction l₁ generalizing v with
  | nil =>
    have h1 := h.merge v.min v.max
    simp only [mul_one, List.nil_append] at h1
    have r := h1.addend _ (List.mem_cons_self)
    have ha : (statInt t).add v k = .ok ⟨v.addend + k, v.min, v.max, v.mult⟩ := by
      simp [NumTy.add, NumTy.fit_inRange r]
    rw [joinList, Res.bind_ok, ha, Res.bind_ok, statInt.joinList_small t _ _ h1]
    rfl
  | cons w l₁ ih =>
    have h0 : SmallInts t (v :: w :: ⟨k, 0, 0, 1⟩ :: (l₁ ++ l₂)) := h.perm ((List.Perm.swap _ _ _).cons _)
    have h1 := h0.merge (max v.min w.min) (min v.max w.max)
    have ra := h1.addend _ (List.mem_cons_self)
    have rm := h1.mult _ (List.mem_cons_self)
    have hj : (statInt t).join v w = .ok ⟨v.addend + w.addend, max v.min w.min, min v.max w.max,
        v.mult * w.mult⟩ := by
      simp [NumTy.add, NumTy.mul, NumTy.fit_inRange ra, NumTy.fit_inRange rm, NumTy.max_eq, NumTy.min_eq]
    rw [joinList, hj, Res.bind_ok, ih _ h1]
    simp only [List.cons_append, List.map_cons, List.sum_cons, List.prod_cons, largest, smallest, List.foldl_cons,
      mul_assoc]
    congr 2
    ring

/-- **C108** for integers, if the numbers are small enough not to overflow: the exact query evaluates to the sum of
its addends times the product of its multipliers within its bounds, `src`; and the query that the effect applies to
evaluates to the sum of its addends and the share of `src`, times the product of its multipliers, within its bounds.
The multipliers and bounds of either do not act on the other, except that its multipliers also multiply the share. -/
theorem C108_int (h : MapsAnd J c own₁ own₂ items) (e : Ent) (he : c.on e = true)
    (hx : c.applies (.exact c.anyOf c.allOf) = false) (q : QualifierQuery Q) (hq : c.applies q = true) (t : NumTy)
    (hD : (E.asEntry c.stat).Is (statInt t))
    (hs : Storable (E.layout (E.asEntry c.stat).ty)) (hT : Storable (E.statLayout c.T))
    (hst : J.world.isStat e = true) (v : (E.asEntry c.stat).Val)
    (hv : J.world.startValue A (E.asEntry c.stat) = .ok (.val (E.asEntry c.stat).ty v))
    (Lq Lx : List (List (Qualifier Q × (E.asEntry c.stat).Val)))
    (hLq : List.Forall₂ (MatchesAt q (E.asEntry c.stat)) (mapPlaces J (own₁ ++ own₂) items e) Lq)
    (hLx : List.Forall₂ (MatchesAt (.exact c.anyOf c.allOf) (E.asEntry c.stat))
      (mapPlaces J (own₁ ++ own₂) items e) Lx) (n : Nat) :
    let v₀ := asVal hD v
    let l := Lq.flatten.map fun x => asVal hD x.2
    let lx := Lx.flatten.map fun x => asVal hD x.2
    let src : Int := clampTo (((v₀ :: lx).map (·.addend)).sum * ((v₀ :: lx).map (·.mult)).prod)
      (largest v₀.min (lx.map (·.min))) (smallest v₀.max (lx.map (·.max)))
    let k : Int := asAdd hD (c.share (ofOut hD src))
    SmallInts t (v₀ :: lx) → SmallInts t (v₀ :: ⟨k, 0, 0, 1⟩ :: l) →
    ∃ w out, J.answer A (n + 2) (.stat e q (E.asEntry c.stat)) = .ok (some w) ∧
      (E.asEntry c.stat).sv.eval w = .ok out ∧
      asOut hD out = clampTo ((((v₀ :: l).map (·.addend)).sum + k) * ((v₀ :: l).map (·.mult)).prod)
        (largest v₀.min (l.map (·.min))) (smallest v₀.max (l.map (·.max))) := by
  intro v₀ l lx src k hl hk
  obtain ⟨L₁, L₂, Ls, h1, h2, h3, h4⟩ := C108_value h e he hx q hq hs hT hst v hv
  have h12 : List.Forall₂ (MatchesAt q (E.asEntry c.stat)) (mapPlaces J (own₁ ++ own₂) items e) (L₁ ++ L₂) := by
    unfold mapPlaces at h2 ⊢
    rw [List.map_append, List.append_assoc]
    exact List.rel_append h1 h2
  have fm : ∀ Ls : List (List (Qualifier Q × (E.asEntry c.stat).Val)),
      (Ls.flatten.map fun x => asVal hD x.2) = (Ls.flatten.map (·.2)).map (asVal hD) := fun Ls => by
    rw [List.map_map]; rfl
  have px : lx.Perm ((Ls.flatten.map (·.2)).map (asVal hD)) := by
    rw [← fm]; exact (listed_perm hLx h3).map _
  have pq : l.Perm ((L₁.flatten.map (·.2)).map (asVal hD) ++ (L₂.flatten.map (·.2)).map (asVal hD)) := by
    rw [← List.map_append, ← List.map_append, ← List.flatten_append, ← fm]; exact (listed_perm hLq h12).map _
  have e1 := statInt.eval_small t _ _ (hl.perm (px.cons v₀))
  rw [← largest_perm (px.map _), ← smallest_perm (px.map _), ← ((px.cons v₀).map _).sum_eq,
      ← ((px.cons v₀).map _).prod_eq] at e1
  have hk' : SmallInts t (v₀ :: ⟨k, 0, 0, 1⟩ ::
      ((L₁.flatten.map (·.2)).map (asVal hD) ++ (L₂.flatten.map (·.2)).map (asVal hD))) :=
    hk.perm ((pq.cons _).cons _)
  have e2 := statInt.join_add_join t k _ _ v₀ hk'
  rw [← largest_perm (pq.map _), ← smallest_perm (pq.map _), ← (pq.map _).sum_eq, ← (pq.map _).prod_eq] at e2
  have r : t.prim.InRange ((v₀.addend + k + (l.map (·.addend)).sum) * (v₀.mult * (l.map (·.mult)).prod)) := by
    have hm := hk.merge v₀.min v₀.max
    simp only [mul_one] at hm
    have he := statInt.joinList_small t _ _ hm
    refine IntTy.inRange_of_abs ?_ fun hs => ?_
    · rw [abs_mul]
      have a := abs_addends_le (⟨v₀.addend + k, v₀.min, v₀.max, v₀.mult⟩ :: l)
      have b := abs_mults_le (⟨v₀.addend + k, v₀.min, v₀.max, v₀.mult⟩ :: l)
      simp only [List.map_cons, List.sum_cons, List.prod_cons] at a b
      have hb := hm.both
      simp only [List.map_cons, List.sum_cons, List.prod_cons] at hb
      exact (mul_le_mul a b (abs_nonneg _) (by
        have : 0 ≤ (l.map fun v => |v.addend|).sum := List.sum_nonneg (by simp)
        positivity)).trans hb
    · have hu : t.prim.lo = 0 := by simp [IntTy.lo, hs]
      refine mul_nonneg (add_nonneg ?_ (List.sum_nonneg fun x hx => ?_))
        (mul_nonneg ?_ (List.prod_nonneg fun x hx => ?_))
      · have := (hm.addend _ List.mem_cons_self).1
        change t.prim.lo ≤ v₀.addend + k at this
        omega
      · obtain ⟨y, hy, rfl⟩ := List.mem_map.1 hx
        have := (hm.addend y (List.mem_cons_of_mem _ hy)).1
        omega
      · have := (hm.mult _ List.mem_cons_self).1
        change t.prim.lo ≤ v₀.mult at this
        omega
      · obtain ⟨y, hy, rfl⟩ := List.mem_map.1 hx
        have := (hm.mult y (List.mem_cons_of_mem _ hy)).1
        omega
  have e3 : (statInt t).eval ⟨v₀.addend + k + (l.map (·.addend)).sum, largest v₀.min (l.map (·.min)),
      smallest v₀.max (l.map (·.max)), v₀.mult * (l.map (·.mult)).prod⟩ = .ok (clampTo
        ((v₀.addend + k + (l.map (·.addend)).sum) * (v₀.mult * (l.map (·.mult)).prod))
        (largest v₀.min (l.map (·.min))) (smallest v₀.max (l.map (·.max)))) := by
    simp [NumTy.mul, NumTy.fit_inRange r, NumTy.max_eq, NumTy.min_eq, clampTo]
  obtain ⟨w, out, h5, h6, h7⟩ := convert_as hD v c.share (L₁.flatten.map (·.2)) (L₂.flatten.map (·.2))
    (Ls.flatten.map (·.2)) src _ _ e1 e2 e3
  refine ⟨w, out, (h4 n).trans h5, h6, ?_⟩
  rw [h7]
  simp only [List.map_cons, List.sum_cons, List.prod_cons]
  congr 2
  ring

/-! ### registered defaults -/

/-- C108 is false for registered defaults: where nothing is stored, the start value is counted by the query and by
the share. -/
theorem C108_default_twice (h : MapsAnd (A := A) J c [] [] []) (e : Ent) (he : c.on e = true)
    (hx : c.applies (.exact c.anyOf c.allOf) = false) (q : QualifierQuery Q) (hq : c.applies q = true)
    (hs : Storable (E.layout (E.asEntry c.stat).ty)) (hT : Storable (E.statLayout c.T))
    (hst : J.world.isStat e = true) (v : (E.asEntry c.stat).Val)
    (hv : J.world.startValue A (E.asEntry c.stat) = .ok (.val (E.asEntry c.stat).ty v)) (n : Nat) :
    J.answer A (n + 2) (.stat e q (E.asEntry c.stat)) =
      ((E.asEntry c.stat).sv.eval v >>= fun out => (E.asEntry c.stat).sv.add v (c.share out) >>= fun z =>
        .ok (some z)) := by
  obtain ⟨L₁, L₂, Ls, h1, h2, h3, h4⟩ := C108_value h e he hx q hq hs hT hst v hv
  rw [h4 n]
  cases h1
  cases h2
  cases h3
  rfl

/-- half of magic damage (flag 0) is added to queries that ask for physical damage (flag 1), on all entities -/
def demoConvert : Conversion demo (BitVec 8) Nat where
  T := true
  stat := (0 : Nat)
  anyOf := 0
  allOf := 1
  applies q := match q with
    | .aggregate x => x[1]
    | .exact _ _ => false
  share := fun (x : Int) => x / 2
  on _ := true

/-- the registered default of the stat is 10 -/
def demoConvertWorld : World demo (BitVec 8) Nat :=
  { demoWorld with relations := none, defaults := some [(demoInt 0, .val true (⟨10, -100, 100, 1⟩ : StatInt))] }

/-- the effect only -/
def demoConvertOnly : Joined demo (BitVec 8) Nat := demoConvertWorld.withComponent (demoConvert.stream demoAddr)

/-- **C108** is false: nothing at all is stored, damage is 10 by default, and physical damage is 15, while half of the
magic damage that the default does not already give is 0. -/
theorem C108_refuted (n : Nat) : (demoConvertOnly.answer demoAddr (n + 2) (.stat 0 (.aggregate 2) (demoInt 0)) :
      Res (Option StatInt)) = .ok (some ⟨15, -100, 100, 1⟩) ∧
    MapsAnd (A := demoAddr) demoConvertOnly demoConvert [] [] [] := by
  have h : MapsAnd (A := demoAddr) demoConvertOnly demoConvert [] [] [] := ⟨rfl, rfl, rfl, rfl⟩
  refine ⟨?_, h⟩
  exact (C108_default_twice h 0 rfl rfl (.aggregate 2) (by decide) (by decide) (by decide) rfl
    (⟨10, -100, 100, 1⟩ : StatInt) rfl n).trans rfl

/-- damage `+5`, magic damage `+40`, physical damage `*2` -/
def demoDamageOps (_ : Nat) : Option (List (MapOp demo (BitVec 8))) :=
  some [.insertBase ⟨0, 0⟩ (demoInt 0) (5 : Int), .insertBase ⟨0, 1⟩ (demoInt 0) (40 : Int),
    .insert ⟨0, 2⟩ (demoInt 0) ⟨0, -100, 100, 2⟩]
def demoDamage : MapComp (Q := BitVec 8) demoAddr Nat := .ofOps demoDamageOps

/-- without a default: `(5 + 40 / 2) * 2` -/
def demoConvertMaps : Joined demo (BitVec 8) Nat :=
  ({ demoWorld with relations := none }.withComponent demoDamage.stream).withComponent (demoConvert.stream demoAddr)

theorem demoConvertMaps_ok : MapsAnd demoConvertMaps demoConvert [demoDamage] [] [] := ⟨rfl, rfl, rfl, rfl⟩

example : (demoConvertMaps.answer demoAddr 2 (.stat 0 (.aggregate 2) (demoInt 0)) : Res (Option StatInt)) =
    .ok (some ⟨25, -100, 100, 2⟩) := rfl

theorem demoDamage_run : PMap.run (E := demo) (Q := BitVec 8) [.insertBase ⟨0, 0⟩ (demoInt 0) (5 : Int),
    .insertBase ⟨0, 1⟩ (demoInt 0) (40 : Int), .insert ⟨0, 2⟩ (demoInt 0) ⟨0, -100, 100, 2⟩] =
    .ok (((PMap.empty.set ⟨demoInt 0, ⟨0, 0⟩⟩ (⟨5, -2147483648, 2147483647, 1⟩ : StatInt)).set
      ⟨demoInt 0, ⟨0, 1⟩⟩ (⟨40, -2147483648, 2147483647, 1⟩ : StatInt)).set
      ⟨demoInt 0, ⟨0, 2⟩⟩ (⟨0, -100, 100, 2⟩ : StatInt)) := rfl

theorem demoDamage_stored (k : Qualifier (BitVec 8)) (v : StatInt) :
    (((PMap.empty.set (⟨demoInt 0, ⟨0, 0⟩⟩ : Key demo (BitVec 8)) (⟨5, -2147483648, 2147483647, 1⟩ : StatInt)).set
      ⟨demoInt 0, ⟨0, 1⟩⟩ (⟨40, -2147483648, 2147483647, 1⟩ : StatInt)).set
      ⟨demoInt 0, ⟨0, 2⟩⟩ (⟨0, -100, 100, 2⟩ : StatInt)) ⟨demoInt 0, k⟩ = some v ↔
    (k = ⟨0, 0⟩ ∧ v = ⟨5, -2147483648, 2147483647, 1⟩) ∨ (k = ⟨0, 1⟩ ∧ v = ⟨40, -2147483648, 2147483647, 1⟩) ∨
      (k = ⟨0, 2⟩ ∧ v = ⟨0, -100, 100, 2⟩) := by
  by_cases h2 : k = ⟨0, 2⟩
  · subst h2
    rw [PMap.set, dif_pos rfl]
    simp [eq_comm]
  rw [PMap.set, dif_neg (fun h => h2 (congrArg Key.qual h))]
  by_cases h1 : k = ⟨0, 1⟩
  · subst h1
    rw [PMap.set, dif_pos rfl]
    simp [eq_comm]
  rw [PMap.set, dif_neg (fun h => h1 (congrArg Key.qual h))]
  by_cases h0 : k = ⟨0, 0⟩
  · subst h0
    rw [PMap.set, dif_pos rfl]
    simp [eq_comm]
  rw [PMap.set, dif_neg (fun h => h0 (congrArg Key.qual h))]
  constructor
  · intro h; cases h
  · rintro (⟨h, -⟩ | ⟨h, -⟩ | ⟨h, -⟩)
    · exact absurd h h0
    · exact absurd h h1
    · exact absurd h h2

theorem demoDamage_physical : MatchesAt (.aggregate 2) (demoInt 0) (demoDamage, 0)
    [(⟨0, 0⟩, (⟨5, -2147483648, 2147483647, 1⟩ : StatInt)), (⟨0, 2⟩, (⟨0, -100, 100, 2⟩ : StatInt))] := by
  refine listed_of_run (ops := demoDamageOps) rfl rfl demoDamage_run (by simp) fun k v => ?_
  rw [← matches_iff]
  refine Iff.trans ?_ (and_congr_left' (demoDamage_stored k v)).symm
  constructor
  · intro h
    rcases List.mem_cons.1 h with h | h
    · cases h; exact ⟨.inl ⟨rfl, rfl⟩, by decide⟩
    · cases List.mem_singleton.1 h; exact ⟨.inr (.inr ⟨rfl, rfl⟩), by decide⟩
  · rintro ⟨⟨rfl, rfl⟩ | ⟨rfl, rfl⟩ | ⟨rfl, rfl⟩, h⟩
    · exact .head _
    · exact absurd h (by decide)
    · exact .tail _ (.head _)

theorem demoDamage_magic : MatchesAt (.exact 0 1) (demoInt 0) (demoDamage, 0)
    [(⟨0, 1⟩, (⟨40, -2147483648, 2147483647, 1⟩ : StatInt))] := by
  refine listed_of_run (ops := demoDamageOps) rfl rfl demoDamage_run (by simp) fun k v => ?_
  rw [← matches_iff]
  refine Iff.trans ?_ (and_congr_left' (demoDamage_stored k v)).symm
  constructor
  · intro h
    cases List.mem_singleton.1 h; exact ⟨.inr (.inl ⟨rfl, rfl⟩), by decide⟩
  · rintro ⟨⟨rfl, rfl⟩ | ⟨rfl, rfl⟩ | ⟨rfl, rfl⟩, h⟩
    · exact absurd h (by decide)
    · exact .head _
    · exact absurd h (by decide)

example (n : Nat) : ∃ w out, demoConvertMaps.answer demoAddr (n + 2) (.stat 0 (.aggregate 2) (demoInt 0)) =
    .ok (some w) ∧ (demoSv true).eval w = .ok out ∧ out = (50 : Int) :=
  C108_int demoConvertMaps_ok 0 rfl rfl (.aggregate 2) (by decide) ⟨.i32, .prim, .debug⟩ rfl (by decide) (by decide)
    rfl (⟨0, -2147483648, 2147483647, 1⟩ : StatInt) rfl _ _ (.cons demoDamage_physical .nil)
    (.cons demoDamage_magic .nil) n ⟨by decide, by decide, by decide, by decide, by decide⟩
    ⟨by decide, by decide, by decide, by decide, by decide⟩

example : ∃ f : FlagSet.Flag (BitVec 8), FlagSet.has (1 : BitVec 8) f ∧ ¬ FlagSet.has (2 : BitVec 8) f :=
  ⟨(⟨0, by decide⟩ : Fin 8), show (1 : BitVec 8)[0] = true by decide, show ¬ (2 : BitVec 8)[0] = true by decide⟩

/-- an effect that applies to all queries asks itself for ever -/
example (n : Nat) : ({ demoWorld with relations := none }.withComponent
      (({ demoConvert with applies := fun _ => true } : Conversion demo (BitVec 8) Nat).stream demoAddr)).answer
    demoAddr n (.stat 0 (.exact 0 1) (demoInt 0)) = .error .fuel :=
  C108_endless (c := { demoConvert with applies := fun _ => true }) (A := demoAddr) (own₁ := []) (own₂ := [])
    (items := []) ⟨rfl, rfl, rfl, rfl⟩ 0 rfl rfl (by decide) (by decide) rfl
    (⟨0, -2147483648, 2147483647, 1⟩ : StatInt) rfl (fun Ls h => by cases h; exact ⟨_, rfl⟩) n

end BSQ
