import Verif.Spec.DefaultsExact
import Verif.Props.Plugin
/-!
# C42, exactly
-/
set_option linter.unusedSectionVars false
namespace BSQ
variable {E : Env} (A : Addr E)

/-- what the registry holds for a stat, when the plain map holds `x` -/
def DefSlot (d : Defaults E) (s : StatInst E) (x : Option s.Val) : Prop :=
  (x = none ∧ HMap.get (StatInst.eq A) d s = none) ∨
  (∃ v, x = some v ∧ HMap.get (StatInst.eq A) d s = some (.val s.ty v) ∧ Storable (E.layout s.ty)) ∨
  (∃ v o, x = some v ∧ HMap.get (StatInst.eq A) d s = some (.op s.ty o) ∧ Storable (E.layout s.ty))

/-- what the remaining registrations of a stat must look like, given what is stored for it -/
def DefFine (d : Defaults E) (s : StatInst E) (os : List (DefOp E)) : Prop :=
  match HMap.get (StatInst.eq A) d s with
  | none => DefOp.Fine os
  | some (.val _ _) => True
  | some (.op _ _) => ∃ t v l, os = .default t v :: l

theorem DefSlot.get {d : Defaults E} {f : DMap E} {s : StatInst E} (h : DefSlot A d s (f s)) :
    Defaults.get A d s = .ok (f.value s) ↔ DefFine A d s [] := by
  rcases h with ⟨h1, h2⟩ | ⟨v, h1, h2, h3⟩ | ⟨v, o, h1, h2, h3⟩
  · simp [Defaults.get, DefFine, h2, DMap.value, h1, DefOp.Fine]
  · simp [Defaults.get, DefFine, h2, DMap.value, h1, Buf.read_val, h3]
  · simp [Defaults.get, DefFine, h2, Buf.read, validate_eq, h3, Buf.get]

theorem DefOp.about_cons_self (o : DefOp E) (os : List (DefOp E)) :
    DefOp.about o.stat (o :: os) = o :: DefOp.about o.stat os := by simp [DefOp.about]

theorem DefOp.about_cons_ne {s : StatInst E} {o : DefOp E} (h : o.stat ≠ s) (os : List (DefOp E)) :
    DefOp.about s (o :: os) = DefOp.about s os := by simp [DefOp.about, h]

/-- an operation that changes only its own stat, in both -/
theorem DefSlot.other {d d' : Defaults E} {f f' : DMap E} {t : StatInst E}
    (hd : ∀ s, s ≠ t → HMap.get (StatInst.eq A) d' s = HMap.get (StatInst.eq A) d s)
    (hf : ∀ s, s ≠ t → f' s = f s) (h : ∀ s, DefSlot A d s (f s)) (ht : DefSlot A d' t (f' t)) :
    ∀ s, DefSlot A d' s (f' s) := by
  intro s
  by_cases hs : s = t
  · subst hs; exact ht
  · have := h s
    unfold DefSlot at this ⊢
    rw [hd s hs, hf s hs]
    exact this

theorem DefFine.step {d d' : Defaults E} {o : DefOp E} {os : List (DefOp E)}
    (hd : ∀ s, s ≠ o.stat → HMap.get (StatInst.eq A) d' s = HMap.get (StatInst.eq A) d s)
    (ht : DefFine A d o.stat (o :: DefOp.about o.stat os) ↔ DefFine A d' o.stat (DefOp.about o.stat os)) :
    (∀ s, DefFine A d s (DefOp.about s (o :: os))) ↔ ∀ s, DefFine A d' s (DefOp.about s os) := by
  refine forall_congr' fun s => ?_
  by_cases hs : s = o.stat
  · subst hs; rw [DefOp.about_cons_self]; exact ht
  · rw [DefOp.about_cons_ne (fun h => hs h.symm)]
    unfold DefFine
    rw [hd s hs]

theorem DMap.store_eq {f f' : DMap E} {s : StatInst E} {v : s.Val} (h : f.store s v = .ok f') :
    Storable (E.layout s.ty) ∧ f' s = some v ∧ ∀ t, t ≠ s → f' t = f t := by
  unfold DMap.store at h
  split at h
  · rename_i hs
    cases h
    exact ⟨hs, by simp, fun t ht => by simp [ht]⟩
  · cases h

/-- a bound, registered in both -/
theorem DefSlot.patch {d : Defaults E} {f f1 : DMap E} (t : StatInst E) (o : StatOp t.sv) (op : DefOp E)
    (hop : op.stat = t) (h : ∀ s, DefSlot A d s (f s)) (v : t.Val) (hv : o.writeTo (f.value t) = .ok v)
    (hf : f.store t v = .ok f1) (os : List (DefOp E))
    (hfine : ∀ l, DefOp.Fine (op :: l) ↔ Storable (E.opLayout t.ty) ∧ ∃ u w m, l = .default u w :: m)
    (hnd : ∀ l u w m, op :: l ≠ .default u w :: m) :
    (∃ d1, Defaults.patch A d t o = .ok d1 ∧ (∀ s, DefSlot A d1 s (f1 s)) ∧
      ((∀ s, DefFine A d s (DefOp.about s (op :: os))) ↔ ∀ s, DefFine A d1 s (DefOp.about s os))) ∨
    ((∀ d1, Defaults.patch A d t o ≠ .ok d1) ∧ ¬ ∀ s, DefFine A d s (DefOp.about s (op :: os))) := by
  obtain ⟨hs, h1, h2⟩ := DMap.store_eq hf
  subst hop
  rcases h op.stat with ⟨g1, g2⟩ | ⟨w, g1, g2, g3⟩ | ⟨w, o', g1, g2, g3⟩
  · have hv' : o.writeTo op.stat.sv.default = .ok v := by simpa [DMap.value, g1] using hv
    by_cases ho : Storable (E.opLayout op.stat.ty)
    · left
      refine ⟨(HMap.insert (StatInst.eq A) d op.stat (.op op.stat.ty o)).1, ?_, ?_, ?_⟩
      · simp [Defaults.patch, g2, hv', Buf.fromOp, validate_eq, ho]
      · refine DefSlot.other A (t := op.stat) (fun s hs' => ?_) h2 h (.inr (.inr ⟨v, o, h1, ?_, hs⟩))
        · rw [HMap.get_insert (StatInst.eq_iff A), if_neg (fun h => hs' h.symm)]
        · rw [HMap.get_insert (StatInst.eq_iff A), if_pos rfl]
      · refine DefFine.step A (fun s hs' => ?_) ?_
        · rw [HMap.get_insert (StatInst.eq_iff A), if_neg (fun h => hs' h.symm)]
        · unfold DefFine
          rw [HMap.get_insert (StatInst.eq_iff A), if_pos rfl, g2]
          simp only [hfine, ho, true_and]
    · right
      refine ⟨fun d1 hd1 => ?_, fun hall => ?_⟩
      · simp [Defaults.patch, g2, hv', Buf.fromOp, validate_eq, ho] at hd1
      · have := hall op.stat
        rw [DefOp.about_cons_self] at this
        unfold DefFine at this
        rw [g2] at this
        exact ho ((hfine _).1 this).1
  · left
    have hv' : o.writeTo w = .ok v := by simpa [DMap.value, g1] using hv
    refine ⟨HMap.set (StatInst.eq A) d op.stat (.val op.stat.ty v), ?_, ?_, ?_⟩
    · simp [Defaults.patch, g2, Buf.read_val, g3, hv']
    · refine DefSlot.other A (t := op.stat) (fun s hs' => ?_) h2 h (.inr (.inl ⟨v, h1, ?_, hs⟩))
      · rw [HMap.get_set (StatInst.eq_iff A), if_neg (fun h => hs' h.symm)]
      · rw [HMap.get_set (StatInst.eq_iff A), if_pos rfl, g2]; rfl
    · refine DefFine.step A (fun s hs' => ?_) ?_
      · rw [HMap.get_set (StatInst.eq_iff A), if_neg (fun h => hs' h.symm)]
      · unfold DefFine
        rw [HMap.get_set (StatInst.eq_iff A), if_pos rfl, g2]
        simp
  · right
    refine ⟨fun d1 hd1 => ?_, fun hall => ?_⟩
    · simp [Defaults.patch, g2, Buf.read, validate_eq, g3, Buf.get] at hd1
    · have := hall op.stat
      rw [DefOp.about_cons_self] at this
      unfold DefFine at this
      rw [g2] at this
      obtain ⟨u, w', m, hm⟩ := this
      exact hnd _ _ _ _ hm

theorem DefFine.runFrom (os : List (DefOp E)) (d : Defaults E) (f f' : DMap E) (h : ∀ s, DefSlot A d s (f s))
    (hf : f.runFrom os = .ok f') :
    (∃ d', Defaults.runFrom A d os = .ok d' ∧ (∀ s, DefSlot A d' s (f' s)) ∧
      ((∀ s, DefFine A d s (DefOp.about s os)) ↔ ∀ s, DefFine A d' s [])) ∨
    ((∀ d', Defaults.runFrom A d os ≠ .ok d') ∧ ¬ ∀ s, DefFine A d s (DefOp.about s os)) := by
  induction os generalizing d f with
  | nil =>
    cases hf
    exact .inl ⟨d, rfl, h, Iff.rfl⟩
  | cons o os ih =>
    rw [DMap.runFrom, Res.bind_eq_ok] at hf
    obtain ⟨f1, hf1, hf2⟩ := hf
    suffices key : (∃ d1, Defaults.step A d o = .ok d1 ∧ (∀ s, DefSlot A d1 s (f1 s)) ∧
        ((∀ s, DefFine A d s (DefOp.about s (o :: os))) ↔ ∀ s, DefFine A d1 s (DefOp.about s os))) ∨
        ((∀ d1, Defaults.step A d o ≠ .ok d1) ∧ ¬ ∀ s, DefFine A d s (DefOp.about s (o :: os))) by
      rcases key with ⟨d1, hd1, hr, hw⟩ | ⟨hn, hw⟩
      · rw [Defaults.runFrom, hd1, Res.bind_ok, hw]
        exact ih d1 f1 hr hf2
      · refine .inr ⟨fun d' hd' => ?_, hw⟩
        rw [Defaults.runFrom, Res.bind_eq_ok] at hd'
        obtain ⟨d1, hd1, -⟩ := hd'
        exact hn d1 hd1
    cases o with
    | default t v =>
      obtain ⟨hs, h1, h2⟩ := DMap.store_eq hf1
      refine .inl ⟨(HMap.insert (StatInst.eq A) d t (.val t.ty v)).1, ?_, ?_, ?_⟩
      · simp [Defaults.step, Defaults.insert, Buf.from_eq, hs]
      · refine DefSlot.other A (t := t) (fun s hs' => ?_) h2 h (.inr (.inl ⟨v, h1, ?_, hs⟩))
        · rw [HMap.get_insert (StatInst.eq_iff A), if_neg (fun h => hs' h.symm)]
        · rw [HMap.get_insert (StatInst.eq_iff A), if_pos rfl]
      · refine DefFine.step A (o := .default t v) (fun s hs' => ?_) ?_
        · rw [HMap.get_insert (StatInst.eq_iff A), if_neg (fun h => hs' h.symm)]
        · unfold DefFine
          rw [HMap.get_insert (StatInst.eq_iff A), if_pos (show t = (DefOp.default t v).stat from rfl)]
          rcases h t with ⟨g1, g2⟩ | ⟨w, g1, g2, g3⟩ | ⟨w, o', g1, g2, g3⟩ <;>
            simp [DefOp.stat, g2, DefOp.Fine]
    | min t b =>
      rw [DMap.step, Res.bind_eq_ok] at hf1
      obtain ⟨v, hv, hst⟩ := hf1
      exact DefSlot.patch A t (.min b) (.min t b) rfl h v hv hst os
        (by intro l; cases l with
            | nil => simp [DefOp.Fine]
            | cons x l => cases x <;> simp [DefOp.Fine])
        (by simp)
    | max t b =>
      rw [DMap.step, Res.bind_eq_ok] at hf1
      obtain ⟨v, hv, hst⟩ := hf1
      exact DefSlot.patch A t (.max b) (.max t b) rfl h v hv hst os
        (by intro l; cases l with
            | nil => simp [DefOp.Fine]
            | cons x l => cases x <;> simp [DefOp.Fine])
        (by simp)

/-- anything that holds of a registry exactly if no operation is left in it -/
theorem DefFine.run_iff (os : List (DefOp E)) (f : DMap E) (hf : DMap.run os = .ok f) (P : Defaults E → Prop)
    (hP : ∀ d, Defaults.run A os = .ok d → (∀ s, DefSlot A d s (f s)) → (P d ↔ ∀ s, DefFine A d s [])) :
    (∃ d, Defaults.run A os = .ok d ∧ P d) ↔ ∀ s, DefOp.Fine (DefOp.about s os) := by
  rcases DefFine.runFrom A os [] DMap.empty f (fun s => .inl ⟨rfl, rfl⟩) hf with ⟨d, hd, h1, h2⟩ | ⟨h1, h2⟩
  · change (∀ s, DefOp.Fine (DefOp.about s os)) ↔ _ at h2
    rw [h2, ← hP d hd h1]
    constructor
    · rintro ⟨d', hd', h⟩
      cases (show Defaults.run A os = .ok d from hd).symm.trans hd'
      exact h
    · exact fun h => ⟨d, hd, h⟩
  · exact iff_of_false (fun ⟨d, hd, _⟩ => h1 d hd) h2

/-- **C42, exactly**: in a history whose values can be stored and whose bounds apply, the registry returns the last
default with the later bounds applied, for every stat, if and only if the registrations of each stat start with a
default, or with a single bound that a default then replaces. -/
theorem C42_iff (os : List (DefOp E)) (f : DMap E) (hf : DMap.run os = .ok f) :
    (∃ d, Defaults.run A os = .ok d ∧ ∀ s, Defaults.get A d s = .ok (f.value s)) ↔
      ∀ s, DefOp.Fine (DefOp.about s os) := by
  exact DefFine.run_iff A os f hf _ fun d _ h => forall_congr' fun s => DefSlot.get A (h s)

/-- C42: a history that is fine although a bound comes first, and one that is not -/
example :
    (∃ d f, DMap.run [.min (demoInt 0) (5 : Int), .default (demoInt 0) ⟨1, 0, 9, 1⟩] = .ok f ∧
      Defaults.run demoAddr [.min (demoInt 0) (5 : Int), .default (demoInt 0) ⟨1, 0, 9, 1⟩] = .ok d ∧
      Defaults.get demoAddr d (demoInt 0) = .ok ⟨1, 0, 9, 1⟩ ∧ f.value (demoInt 0) = ⟨1, 0, 9, 1⟩) ∧
    (∃ f, DMap.run [.min (demoInt 0) (5 : Int), .max (demoInt 0) (9 : Int)] = .ok f) ∧
    Defaults.run demoAddr [.min (demoInt 0) (5 : Int), .max (demoInt 0) (9 : Int)] = .error .ub :=
  ⟨⟨_, _, rfl, rfl, rfl, rfl⟩, ⟨_, rfl⟩, rfl⟩

end BSQ
