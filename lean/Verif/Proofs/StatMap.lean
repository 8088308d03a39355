import Verif.Proofs.Vec
/-! # `StatMap` represents a plain map -/
set_option linter.unusedSectionVars false
namespace BSQ
variable {E : Env} {Q : Type}

theorem validate_eq (l : Layout) : validate l = if Storable l then .ok () else .error .panic := by
  unfold validate Storable
  by_cases h : l.align = 1 ∨ l.align = 2 ∨ l.align = 4 ∨ l.align = 8
  · by_cases h' : l.size ≤ 24
    · simp [h, h']
    · simp [h, h']
  · simp [h]

theorem Buf.from_eq (u : E.U) (x : E.El u) :
    Buf.from_ u x = if Storable (E.layout u) then .ok (.val u x) else .error .panic := by
  unfold Buf.from_
  rw [validate_eq]
  split <;> rfl

theorem Buf.get_val (u : E.U) (x : E.El u) : Buf.get u (.val u x) = .ok x := by simp [Buf.get]

theorem Buf.read_val {u : E.U} (h : Storable (E.layout u)) (x : E.El u) : Buf.read u (.val u x) = .ok x := by
  unfold Buf.read
  rw [validate_eq, if_pos h]
  exact Buf.get_val u x

theorem vtDrop_val {s : E.S} (h : Storable (E.layout (E.valTy s))) (x : E.El (E.valTy s)) :
    vtDrop s (.val (E.valTy s) x) = .ok () := by
  unfold vtDrop
  rw [Buf.read_val h]
  rfl

theorem vtClone_val {s : E.S} (h : Storable (E.layout (E.valTy s))) (x : E.El (E.valTy s)) :
    vtClone s (.val (E.valTy s) x) = .ok (.val (E.valTy s) x) := by
  unfold vtClone
  rw [Buf.read_val h]
  simp [Buf.from_eq, h]

theorem vtJoin_val {s : E.S} (h : Storable (E.layout (E.valTy s))) (x y : E.El (E.valTy s)) :
    vtJoin s (.val (E.valTy s) x) (.val (E.valTy s) y) =
      ((E.sv (E.valTy s)).join x y >>= fun z => .ok (.val (E.valTy s) z)) := by
  unfold vtJoin
  rw [validate_eq, if_pos h]
  simp [Buf.get_val]

/-- both fail alike, or both succeed with related results -/
def ResRel {α β : Type} (R : α → β → Prop) : Res α → Res β → Prop
  | .ok a, .ok b => R a b
  | .error e, .error e' => e = e'
  | _, _ => False

theorem ResRel.bind {α β γ δ : Type} {R : α → β → Prop} {S : γ → δ → Prop} {x : Res α} {y : Res β}
    {f : α → Res γ} {g : β → Res δ} (h : ResRel R x y) (hf : ∀ a b, R a b → ResRel S (f a) (g b)) :
    ResRel S (x >>= f) (y >>= g) := by
  cases x <;> cases y
  · exact h
  · exact h.elim
  · exact h.elim
  · exact hf _ _ h

theorem ResRel.refl_eq {α : Type} (x : Res α) : ResRel Eq x x := by
  cases x <;> rfl

theorem ResRel.bind_same {α γ δ : Type} {S : γ → δ → Prop} (x : Res α)
    {f : α → Res γ} {g : α → Res δ} (hf : ∀ a, ResRel S (f a) (g a)) :
    ResRel S (x >>= f) (x >>= g) :=
  (ResRel.refl_eq x).bind (by rintro a _ rfl; exact hf a)

variable [DecidableEq Q] [Ord Q] [Std.TransOrd Q] [Std.LawfulEqOrd Q] {A : Addr E}

/-- the vector `m` holds exactly the map `a` -/
structure Rep (A : Addr E) (m : StatMap E Q) (a : PMap E Q) : Prop where
  sorted : Vec.Sorted A m
  holds : ∀ k, Vec.lookup m k = (a k).map (Buf.val k.stat.ty)
  storable : ∀ k, (a k).isSome → Storable (E.layout k.stat.ty)

namespace Rep
variable {m : StatMap E Q} {a : PMap E Q}

theorem empty : Rep A (StatMap.new : StatMap E Q) PMap.empty :=
  ⟨List.Pairwise.nil, fun _ => rfl, fun k h => by simp [PMap.empty] at h⟩

theorem mem (h : Rep A m a) {e : Entry E Q (Buf E)} (he : e ∈ m) :
    ∃ x : e.stat.Val, a e.key = some x ∧ e.buf = .val e.stat.ty x ∧ Storable (E.layout e.stat.ty) := by
  have := Vec.lookup_mem h.sorted he
  rw [h.holds] at this
  obtain ⟨x, hx, hb⟩ := Option.map_eq_some_iff.1 this
  exact ⟨x, hx, hb.symm, h.storable e.key (by rw [hx]; rfl)⟩

theorem get (h : Rep A m a) (q : Qualifier Q) (s : StatInst E) : StatMap.get A m q s = .ok (a ⟨s, q⟩) := by
  unfold StatMap.get
  rw [Vec.find_eq h.sorted, h.holds]
  cases hc : a ⟨s, q⟩ with
  | none => rfl
  | some v =>
    simp only [Option.map_some, StatMap.readAs]
    rw [Buf.read_val (h.storable ⟨s, q⟩ (by rw [hc]; rfl))]
    rfl

theorem put (h : Rep A m a) (q : Qualifier Q) (s : StatInst E) (v : s.Val) (hs : Storable (E.layout s.ty)) :
    Rep A (Vec.put A m q s (.val s.ty v)).1 (a.set ⟨s, q⟩ v) := by
  obtain ⟨h1, h2, h3, h4, h5⟩ := Vec.put_spec h.sorted q s (.val s.ty v)
  refine ⟨h1, fun k => ?_, fun k hk => ?_⟩
  · rw [h2]
    by_cases hk : k = ⟨s, q⟩
    · subst hk; simp [PMap.set]
    · simp [PMap.set, hk, h.holds]
  · by_cases hk' : k = ⟨s, q⟩
    · subst hk'; exact hs
    · simp only [PMap.set, hk', dite_false] at hk
      exact h.storable k hk

theorem update (h : Rep A m a) (q : Qualifier Q) (s : StatInst E) (v v' : s.Val) (hv : a ⟨s, q⟩ = some v) :
    Rep A (Vec.update A m q s (.val s.ty v')) (a.set ⟨s, q⟩ v') := by
  rw [Vec.update_spec h.sorted, if_pos (by rw [h.holds, hv]; rfl)]
  exact h.put q s v' (h.storable ⟨s, q⟩ (by rw [hv]; rfl))

theorem store (h : Rep A m a) (q : Qualifier Q) (s : StatInst E) (v : s.Val) :
    ResRel (Rep A) (Buf.from_ s.ty v >>= fun b => .ok (Vec.put A m q s b).1) (a.store ⟨s, q⟩ v) := by
  rw [Buf.from_eq]
  unfold PMap.store
  by_cases hs : Storable (E.layout s.ty)
  · simp only [hs, if_true]
    exact h.put q s v hs
  · simp only [hs, if_false]
    rfl

theorem pull (h : Rep A m a) (q : Qualifier Q) (s : StatInst E) :
    StatMap.remove A m q s = .ok ((Vec.pull A m q s).1, a ⟨s, q⟩) ∧
      Rep A (Vec.pull A m q s).1 (a.unset ⟨s, q⟩) := by
  obtain ⟨h1, h2, h3, h4, h5⟩ := Vec.pull_spec h.sorted q s
  constructor
  · have hg := h.get q s
    unfold StatMap.get at hg
    rw [Vec.find_eq h.sorted] at hg
    unfold StatMap.remove
    simp only [h3, hg, Res.bind_ok]
  · refine ⟨h1, fun k => ?_, fun k hk => ?_⟩
    · rw [h2]
      by_cases hk : k = ⟨s, q⟩
      · simp [PMap.unset, hk]
      · simp [PMap.unset, hk, h.holds]
    · by_cases hk' : k = ⟨s, q⟩
      · simp [PMap.unset, hk'] at hk
      · simp only [PMap.unset, hk', if_false] at hk
        exact h.storable k hk

omit [DecidableEq Q] [Ord Q] [Std.TransOrd Q] [Std.LawfulEqOrd Q] in
theorem dropAll {l : List (Entry E Q (Buf E))}
    (h : ∀ e ∈ l, ∃ x, e.buf = .val e.stat.ty x ∧ Storable (E.layout e.stat.ty)) :
    StatMap.dropAll l = .ok () := by
  induction l with
  | nil => rfl
  | cons e l ih =>
    obtain ⟨x, hx, hs⟩ := h e (by simp)
    unfold StatMap.dropAll
    rw [hx, vtDrop_val hs]
    simpa using ih (fun y hy => h y (by simp [hy]))

theorem removeAll (h : Rep A m a) (s : StatInst E) :
    ResRel (Rep A) (StatMap.removeAll A m s) (.ok (fun k => if k.stat = s then none else a k)) := by
  unfold StatMap.removeAll
  rw [Vec.removeAll_eq h.sorted]
  simp only [Res.bind_ok]
  rw [dropAll (l := m.filter (fun e => decide (e.stat = s)))]
  · refine ⟨Vec.sorted_filter h.sorted _, fun k => ?_, fun k hk => ?_⟩
    · rw [Vec.lookup_filter_stat]
      by_cases hk : k.stat = s <;> simp [hk, h.holds]
    · by_cases hk' : k.stat = s
      · simp [hk'] at hk
      · simp only [hk', if_false] at hk; exact h.storable k hk
  · intro e he
    obtain ⟨x, _, hx⟩ := h.mem (List.mem_filter.1 he).1
    exact ⟨x, hx⟩

theorem clear (h : Rep A m a) : StatMap.clear m = .ok [] := by
  unfold StatMap.clear
  rw [dropAll (l := m)]
  · rfl
  · intro e he
    obtain ⟨x, _, hx⟩ := h.mem he
    exact ⟨x, hx⟩

/-- what `iter_mut` with a total closure does to one entry -/
def touched (s : StatInst E) (f : s.Val → s.Val) (e : Entry E Q (Buf E)) : Entry E Q (Buf E) :=
  if e.stat = s then
    match Buf.get s.ty e.buf with
    | .ok v => { e with buf := .val s.ty (f v) }
    | .error _ => e
  else e

theorem touched_key (s : StatInst E) (f : s.Val → s.Val) (e : Entry E Q (Buf E)) :
    (touched s f e).key = e.key := by
  unfold touched
  split
  · split <;> rfl
  · rfl

theorem iterMut_eq (h : Rep A m a) (s : StatInst E) (f : s.Val → s.Val) :
    StatMap.iterMut A m s (fun v => .ok (f v)) = .ok (m.map (touched s f)) := by
  unfold StatMap.iterMut
  rw [Vec.sliceMut_eq h.sorted]
  have : ∀ l : StatMap E Q, (∀ e ∈ l, e ∈ m) →
      l.mapM (Vec.touch s (fun b => do
        let v ← b.read s.ty
        let v' ← (.ok (f v) : Res s.Val)
        .ok (.val s.ty v'))) = .ok (l.map (touched s f)) := by
    intro l
    induction l with
    | nil => intro _; rfl
    | cons e l ih =>
      intro hl
      rw [List.mapM_cons, ih (fun y hy => hl y (by simp [hy]))]
      obtain ⟨x, _, hx, hs⟩ := h.mem (hl e (by simp))
      by_cases he : e.stat = s
      · subst he
        simp only [Vec.touch, if_true, hx, Buf.read_val hs, Res.bind_ok]
        simp [touched, hx, Buf.get_val]
      · simp [Vec.touch, he, touched]
  exact this m (fun _ h => h)

theorem iterMut (h : Rep A m a) (s : StatInst E) (f : s.Val → s.Val) :
    ResRel (Rep A) (StatMap.iterMut A m s (fun v => .ok (f v))) (.ok (a.mapStat s f)) := by
  rw [h.iterMut_eq]
  have hl : ∀ k, Vec.lookup (m.map (touched s f)) k = (a.mapStat s f k).map (Buf.val k.stat.ty) := by
    intro k
    have e1 : Vec.lookup (m.map (touched s f)) k =
        (m.find? (fun e => decide (e.key = k))).map (fun e => (touched s f e).buf) := by
      unfold Vec.lookup
      rw [List.find?_map, Option.map_map]
      congr 1
      congr 1
      funext e
      simp [touched_key]
    rw [e1]
    have hh := h.holds k
    unfold Vec.lookup at hh
    cases hf : m.find? (fun e => decide (e.key = k)) with
    | none =>
      rw [hf] at hh
      have : a k = none := by
        cases ha : a k with
        | none => rfl
        | some x => rw [ha] at hh; simp at hh
      obtain ⟨t, q⟩ := k
      simp only [PMap.mapStat, this]
      split
      · rename_i hts; subst hts; rfl
      · rfl
    | some e =>
      have hk : e.key = k := by simpa using List.find?_some hf
      obtain ⟨x, hx, hb, hs⟩ := h.mem (List.mem_of_find?_eq_some hf)
      subst hk
      obtain ⟨t, q, b⟩ := e
      simp only [Entry.key] at hx hb ⊢
      by_cases hts : t = s
      · subst hts
        simp [PMap.mapStat, hx, hb, touched, Buf.get_val]
      · simp [PMap.mapStat, hx, hb, touched, hts]
  refine ⟨?_, hl, ?_⟩
  · have : (m.map (touched s f)).map Entry.key = m.map Entry.key := by
      rw [List.map_map]
      congr 1
      funext e
      exact touched_key s f e
    unfold Vec.Sorted
    rw [this]; exact h.sorted
  · intro k hk
    refine h.storable k ?_
    obtain ⟨t, q⟩ := k
    simp only [PMap.mapStat] at hk
    split at hk
    · rename_i hts; subst hts; simpa using hk
    · exact hk

theorem step (h : Rep A m a) (o : MapOp E Q) : ResRel (Rep A) (StatMap.step A m o) (a.step o) := by
  cases o with
  | insert q s v => exact h.store q s v
  | insertBase q s b => exact h.store q s _
  | modify q s o =>
    simp only [StatMap.step, StatMap.modify, PMap.step, h.get q s, Res.bind_ok]
    cases hc : a ⟨s, q⟩ with
    | none => exact ResRel.bind_same _ (fun v => h.store q s v)
    | some v => exact ResRel.bind_same _ (fun v' => h.update q s v v' hc)
  | modifyWith q s f =>
    simp only [StatMap.step, StatMap.modifyWith, PMap.step, h.get q s, Res.bind_ok]
    cases hc : a ⟨s, q⟩ with
    | none => exact ResRel.bind_same _ (fun v => h.store q s v)
    | some v => exact ResRel.bind_same _ (fun v' => h.update q s v v' hc)
  | getMut q s f =>
    simp only [StatMap.step, StatMap.getMut, PMap.step, h.get q s, Res.bind_ok]
    cases hc : a ⟨s, q⟩ with
    | none => exact h
    | some v => exact ResRel.bind_same _ (fun v' => h.update q s v v' hc)
  | iterMut s f => exact h.iterMut s f
  | remove q s =>
    simp only [StatMap.step, PMap.step, (h.pull q s).1, Res.bind_ok]
    exact (h.pull q s).2
  | removeAll s => exact h.removeAll s
  | clear =>
    simp only [StatMap.step, PMap.step, h.clear]
    exact Rep.empty

theorem runFrom (h : Rep A m a) (os : List (MapOp E Q)) :
    ResRel (Rep A) (StatMap.runFrom A m os) (a.runFrom os) := by
  induction os generalizing m a with
  | nil => exact h
  | cons o os ih => exact (h.step o).bind (fun m' a' h' => ih h')

theorem run (os : List (MapOp E Q)) : ResRel (Rep A) (StatMap.run A os) (PMap.run os) :=
  Rep.empty.runFrom os

theorem ext {m' : StatMap E Q} (h : Rep A m a) (h' : Rep A m' a) : m = m' :=
  Vec.ext_lookup h.sorted h'.sorted (fun k => by rw [h.holds, h'.holds])

theorem clone (h : Rep A m a) : StatMap.clone m = .ok m := by
  have : ∀ l : StatMap E Q, (∀ e ∈ l, e ∈ m) → StatMap.clone l = .ok l := by
    intro l
    induction l with
    | nil => intro _; rfl
    | cons e l ih =>
      intro hl
      obtain ⟨x, _, hx, hs⟩ := h.mem (hl e (by simp))
      unfold StatMap.clone
      rw [hx, vtClone_val hs, ih (fun y hy => hl y (by simp [hy]))]
      cases e
      simp only at hx
      simp [hx]
  exact this m (fun _ h => h)

theorem hasSize (h : Rep A m a) : a.HasSize (StatMap.len m) := by
  refine ⟨m.map Entry.key, h.sorted.nodup, fun k => ?_, by simp [StatMap.len]⟩
  constructor
  · intro hk
    obtain ⟨e, he, rfl⟩ := List.mem_map.1 hk
    obtain ⟨x, hx, _⟩ := h.mem he
    rw [hx]; rfl
  · intro hk
    obtain ⟨x, hx⟩ := Option.isSome_iff_exists.1 hk
    have := h.holds k
    rw [hx] at this
    obtain ⟨e, he, hk, _⟩ := Vec.mem_lookup this
    exact List.mem_map.2 ⟨e, he, hk⟩

end Rep
end BSQ
