import Verif.Props.Convert
import Verif.Props.Cache
/-!
# C108 with a cache
-/
namespace BSQ
set_option linter.unusedSectionVars false
variable {E : Env} {Q Ent : Type} [BitFlags Q] [FlagSet Q] [Ord Q] [Std.TransOrd Q] [Std.LawfulEqOrd Q]
  {A : Addr E} {J : Joined E Q Ent} {c : Conversion E Q Ent} {own₁ own₂ items : List (MapComp (Q := Q) A Ent)}

/-- the operations the effect makes use of do not fail other than by panicking -/
structure Conversion.Panics (c : Conversion E Q Ent) : Prop where
  join : ∀ (T : E.S) (v w : E.El (E.valTy T)) x, (E.sv (E.valTy T)).join v w = .error x → x = .panic
  eval : ∀ v x, (E.asEntry c.stat).sv.eval v = .error x → x = .panic
  add : ∀ v k x, (E.asEntry c.stat).sv.add v k = .error x → x = .panic

theorem Conversion.stream_safe (hp : c.Panics) (this : Ent) (q : QualifierQuery Q) :
    Call.Safe ((c.stream A).stream this () q : Call E Q Ent) := by
  rintro ⟨s, b⟩ ⟨v, hv⟩
  change s.Val at v
  change b = .val s.ty v at hv
  subst hv
  change (if c.applies q then _ else _ : Prog E Q Ent (Pair E)).All _
  split
  · by_cases hT : Storable (E.statLayout c.T)
    · by_cases hs : s = E.asEntry c.stat
      · subst hs
        have hi : Pair.isThenCast A ⟨E.asEntry c.stat, .val (E.asEntry c.stat).ty v⟩ c.stat = .ok (some v) :=
          (C36_isThenCast_partial A c.stat hT).1 v
        rw [hi]
        change ∀ x, _
        rintro (- | w)
        · intro h; cases h
        · change (Prog.lift _).All _
          cases he : (E.asEntry c.stat).sv.eval w with
          | error x => rw [Res.bind_error]; intro h; cases h; cases hp.eval _ _ he
          | ok out =>
            rw [Res.bind_ok]
            cases ha : (E.asEntry c.stat).sv.add v (c.share out) with
            | error x => rw [Res.bind_error]; intro h; cases h; cases hp.add _ _ _ ha
            | ok v' => exact ⟨rfl, v', rfl⟩
      · have hi : Pair.isThenCast A ⟨s, .val s.ty v⟩ c.stat = .ok none := (C36_isThenCast_partial A c.stat hT).2 s v hs
        rw [hi]
        exact ⟨rfl, v, rfl⟩
    · have hi : Pair.isThenCast A ⟨s, .val s.ty v⟩ c.stat = .error .panic := by
        simp [Pair.isThenCast, validate_eq, hT]
      rw [hi]
      intro h; cases h
  · exact ⟨rfl, v, rfl⟩

theorem Conversion.stream_quiet (this : Ent) (q : QualifierQuery Q) (p : Pair E) :
    ((c.stream A).stream this () q p).Quiet := by
  change (if c.applies q then _ else _ : Prog E Q Ent (Pair E)).Quiet
  split
  · cases Pair.isThenCast A p c.stat with
    | error x => trivial
    | ok o =>
      cases o with
      | none => trivial
      | some v =>
        rintro (- | w)
        · trivial
        · exact .lift _
  · trivial

theorem MapsAnd.stream_mem (h : MapsAnd J c own₁ own₂ items) {st : CStream E Q Ent}
    (hst : st ∈ J.comp.leaves ++ J.rel.leaves ++ J.child.leaves) :
    st = c.stream A ∨ ∃ m : MapComp (Q := Q) A Ent, st = m.stream := by
  rw [h.comp, h.rel, h.child, List.append_nil] at hst
  simp only [List.mem_append, List.mem_map, List.mem_cons] at hst
  rcases hst with (⟨m, -, rfl⟩ | rfl | ⟨m, -, rfl⟩) | ⟨m, -, rfl⟩
  · exact .inr ⟨m, rfl⟩
  · exact .inl rfl
  · exact .inr ⟨m, rfl⟩
  · exact .inr ⟨m, rfl⟩

theorem MapsAnd.right (hp : c.Panics) (h : MapsAnd J c own₁ own₂ items)
    (hd : ∀ d ∈ J.world.defaults, ∀ s b, HMap.get (StatInst.eq A) d s = some b →
      ∃ v : s.Val, b = .val s.ty v ∧ Storable (E.layout s.ty)) : J.Right A := by
  have hsafe : J.Safe A :=
    { globals := fun g hg => by rw [h.globals] at hg; cases hg
      streams := fun st hst e it hit this q => by
        rcases h.stream_mem hst with rfl | ⟨m, rfl⟩
        · exact Conversion.stream_safe hp this q
        · obtain ⟨ops, h1, -⟩ := m.reached e it hit
          exact StatMap.asStream_safe (fun T v w h => by cases hp.join T v w _ h) ops it h1 this q
      relations := fun st hst => by rw [h.rel] at hst; cases hst
      attrs := fun st hst e it hit this a => by
        rcases h.stream_mem hst with rfl | ⟨m, rfl⟩ <;> (intro h'; cases h')
      defaults := hd }
  have hquiet : J.Quiet := by
    refine .of_streams (fun g hg => ?_) (fun st hst e it _ this q p => ?_) (fun st hst => ?_)
      (fun st hst e it _ this a => ?_)
    · rw [h.globals] at hg; cases hg
    · rcases h.stream_mem hst with rfl | ⟨m, rfl⟩
      · exact Conversion.stream_quiet this q p
      · exact .lift _
    · rw [h.rel] at hst; cases hst
    · rcases h.stream_mem hst with rfl | ⟨m, rfl⟩ <;> trivial
  exact (hsafe.honest hquiet.noStore).right

theorem joinList_panics {V : Type} {D : StatValue V} (hj : ∀ v w x, D.join v w = .error x → x = .panic) :
    ∀ (l : List V) (v : V) x, joinList D v l = .error x → x = .panic
  | [], v, x, h => by cases h
  | w :: l, v, x, h => by
    rw [joinList] at h
    cases hjo : D.join v w with
    | error y => rw [hjo] at h; cases h; exact hj _ _ _ hjo
    | ok v' => rw [hjo] at h; exact joinList_panics hj l v' x h

theorem Res.bind_failed {α β : Type} {x : Res α} {f : α → Res β} {e : Err} (h : x >>= f = .error e) :
    x = .error e ∨ ∃ a, x = .ok a ∧ f a = .error e := by
  cases x with
  | error y => rw [Res.bind_error] at h; exact .inl (by cases h; rfl)
  | ok a => rw [Res.bind_ok] at h; exact .inr ⟨a, rfl, h⟩

/-- **C108 with a cache**: after any queries and clears, whatever they left in the cache, the query comes to the same:
the share is neither lost nor added again when the result of the exact query, or that of the query itself, is already
cached. -/
theorem C108_cached [DecidableEq Q] [DecidableEq Ent] (hp : c.Panics) (h : MapsAnd J c own₁ own₂ items)
    (hd : ∀ d ∈ J.world.defaults, ∀ s b, HMap.get (StatInst.eq A) d s = some b →
      ∃ v : s.Val, b = .val s.ty v ∧ Storable (E.layout s.ty))
    (evs : List (Event E Q Ent)) (hev : ∀ ev ∈ evs, ev.isQuery = true ∨ ev = .clear) (e : Ent) (he : c.on e = true)
    (hx : c.applies (.exact c.anyOf c.allOf) = false) (q : QualifierQuery Q) (hq : c.applies q = true)
    (hs : Storable (E.layout (E.asEntry c.stat).ty)) (hT : Storable (E.statLayout c.T))
    (hst : J.world.isStat e = true) (v : (E.asEntry c.stat).Val)
    (hv : J.world.startValue A (E.asEntry c.stat) = .ok (.val (E.asEntry c.stat).ty v)) :
    ∃ L₁ L₂ Ls : List (List (Qualifier Q × (E.asEntry c.stat).Val)),
      List.Forall₂ (MatchesAt q (E.asEntry c.stat)) (own₁.map (·, e)) L₁ ∧
      List.Forall₂ (MatchesAt q (E.asEntry c.stat)) (mapPlaces J own₂ items e) L₂ ∧
      List.Forall₂ (MatchesAt (.exact c.anyOf c.allOf) (E.asEntry c.stat)) (mapPlaces J (own₁ ++ own₂) items e) Ls ∧
      ∀ n, ((J.handle A (n + 2) (.stat e q (E.asEntry c.stat))).run A (history A J [] evs).2).1 =
        (joinList (E.asEntry c.stat).sv v (L₁.flatten.map (·.2)) >>= fun x =>
          joinList (E.asEntry c.stat).sv v (Ls.flatten.map (·.2)) >>= fun w =>
          (E.asEntry c.stat).sv.eval w >>= fun out =>
          (E.asEntry c.stat).sv.add x (c.share out) >>= fun y =>
          joinList (E.asEntry c.stat).sv y (L₂.flatten.map (·.2)) >>= fun z => .ok (some z)) := by
  obtain ⟨L₁, L₂, Ls, h1, h2, h3, h4⟩ := C108_value h e he hx q hq hs hT hst v hv
  refine ⟨L₁, L₂, Ls, h1, h2, h3, fun n => ?_⟩
  have hR := h.right hp hd
  have hjl := joinList_panics (D := (E.asEntry c.stat).sv) (hp.join c.T)
  rw [(C51_agreeing_partial J J hR hR (fun _ _ _ _ n h => ⟨n, h⟩) evs hev (n + 2) (.stat e q (E.asEntry c.stat))).1 ?_,
    h4 n]
  rw [h4 n]
  intro hf
  rcases Res.bind_failed hf with hf | ⟨x, -, hf⟩
  · cases hjl _ _ _ hf
  rcases Res.bind_failed hf with hf | ⟨w, -, hf⟩
  · cases hjl _ _ _ hf
  rcases Res.bind_failed hf with hf | ⟨out, -, hf⟩
  · cases hp.eval _ _ hf
  rcases Res.bind_failed hf with hf | ⟨y, -, hf⟩
  · cases hp.add _ _ _ hf
  rcases Res.bind_failed hf with hf | ⟨z, -, hf⟩
  · cases hjl _ _ _ hf
  cases hf

/-! ### a concrete case: first magic damage, then twice physical damage, with a cache -/

theorem demoConvert_panics : demoConvert.Panics where
  join := demo_join_panics
  eval v x h := by
    change (NumTy.fit _ _ >>= fun a => Except.ok _) = _ at h
    rcases Res.bind_failed h with h | ⟨_, -, h⟩
    · exact NumTy.fit_error h
    · cases h
  add v k x h := by
    change (NumTy.fit _ _ >>= fun a => Except.ok _) = _ at h
    rcases Res.bind_failed h with h | ⟨_, -, h⟩
    · exact NumTy.fit_error h
    · cases h

/-- The exact query, the query, a clear by hand, and the query twice.  What is cached then is what the query of the
empty cache returns: `(5 + 40 / 2) * 2`. -/
example : ((demoConvertMaps.handle demoAddr 2 (.stat 0 (.aggregate 2) (demoInt 0))).run demoAddr
    (history demoAddr demoConvertMaps [] [.query 1 (.stat 0 (.exact 0 1) (demoInt 0)),
      .query 2 (.stat 0 (.aggregate 2) (demoInt 0)), .clear, .query 2 (.stat 0 (.aggregate 2) (demoInt 0))]).2).1 =
      (.ok (some ⟨25, -100, 100, 2⟩) : Res (Option StatInt)) ∧
    demoConvertMaps.Right demoAddr :=
  ⟨rfl, demoConvertMaps_ok.right demoConvert_panics fun d hd => by cases hd⟩

end BSQ
