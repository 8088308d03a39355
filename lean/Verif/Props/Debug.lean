import Verif.Model.Debug
import Verif.Props.StatMap
import Verif.Props.Cache
/-!
# C67: printing
-/
set_option linter.unusedSectionVars false
namespace BSQ
variable {E : Env} {Q Ent : Type} [DecidableEq Q] [DecidableEq Ent] (A : Addr E)

/-- an entry can be printed: its stat's index is one the stat type recognises -/
def Named (s : StatInst E) : Prop := ∃ n, s.name = .ok n

/-- what should be shown for a stat holding `v` -/
def Shows (s : StatInst E) (v : s.Val) (x : String × Shown E) : Prop := s.name = .ok x.1 ∧ x.2 = ⟨s.ty, v⟩

theorem debugOne_typed {s : StatInst E} {v : s.Val} (hs : Storable (E.layout s.ty)) :
    (∀ n, s.name = .ok n → debugOne s (.val s.ty v) = .ok (n, ⟨s.ty, v⟩)) ∧
    (∀ e, s.name = .error e → debugOne s (.val s.ty v) = .error e) := by
  constructor
  · intro n hn
    simp [debugOne, hn, Buf.read_val hs]
  · intro e he
    simp [debugOne, he]

/-- all entries hold a storable value of their stat's type -/
def AllTyped {K : Type} (stat : K → StatInst E) (l : List (K × Buf E)) : Prop :=
  ∀ x ∈ l, ∃ v : (stat x.1).Val, x.2 = .val (stat x.1).ty v ∧ Storable (E.layout (stat x.1).ty)

theorem debugAll_typed {K : Type} (stat : K → StatInst E) (l : List (K × Buf E)) (h : AllTyped stat l) :
    ((∀ x ∈ l, Named (stat x.1)) → ∃ r, debugAll stat l = .ok r ∧
      List.Forall₂ (fun x y => y.1 = x.1 ∧ ∃ v, x.2 = .val (stat x.1).ty v ∧ Shows (stat x.1) v y.2) l r) ∧
    (∀ e, debugAll stat l = .error e → ∃ x ∈ l, (stat x.1).name = .error e) := by
  induction l with
  | nil => exact ⟨fun _ => ⟨[], rfl, .nil⟩, fun e he => by simp [debugAll] at he⟩
  | cons x l ih =>
    obtain ⟨k, b⟩ := x
    obtain ⟨v, hv, hs⟩ := h (k, b) (by simp)
    obtain ⟨i1, i2⟩ := ih (fun y hy => h y (by simp [hy]))
    clear h ih
    change (stat k).Val at v
    change b = .val (stat k).ty v at hv
    change Storable (E.layout (stat k).ty) at hs
    subst hv
    constructor
    · intro hn
      obtain ⟨n, hnm⟩ := hn _ (List.mem_cons_self)
      obtain ⟨r, hr, hf⟩ := i1 (fun y hy => hn y (by simp [hy]))
      refine ⟨(k, n, ⟨(stat k).ty, v⟩) :: r, ?_, .cons ⟨rfl, v, rfl, hnm, rfl⟩ hf⟩
      simp [debugAll, (debugOne_typed hs).1 n hnm, hr]
    · intro e he
      cases hnm : (stat k).name with
      | error e' =>
        simp only [debugAll, (debugOne_typed hs).2 e' hnm, Res.bind_error, Except.error.injEq] at he
        exact ⟨(k, .val (stat k).ty v), List.mem_cons_self, he ▸ hnm⟩
      | ok n =>
        simp only [debugAll, (debugOne_typed hs).1 n hnm, Res.bind_ok] at he
        cases hl : debugAll stat l with
        | error e' =>
          simp only [hl, Res.bind_error, Except.error.injEq] at he
          obtain ⟨y, hy, hy'⟩ := i2 e' hl
          exact ⟨y, by simp [hy], he ▸ hy'⟩
        | ok r => simp [hl] at he

section map
variable [Ord Q] [Std.TransOrd Q] [Std.LawfulEqOrd Q]

/-- **C67** Printing a reachable map shows each entry once, in the map's order, with the name of its stat and the
value `get` returns; it fails only if some stat has no name. -/
theorem C67_map (h : List (MapOp E Q)) (m : StatMap E Q) (hm : StatMap.run A h = .ok m) :
    ((∀ e ∈ m, Named e.stat) → ∃ r, m.debug = .ok r ∧ List.Forall₂ (fun e y => y.1 = e.qual ∧
      ∃ v, StatMap.get A m e.qual e.stat = .ok (some v) ∧ Shows e.stat v y.2) m r) ∧
    (∀ er, m.debug = .error er → ∃ e ∈ m, e.stat.name = .error er) := by
  obtain ⟨a, _, r⟩ := reachRep A hm
  have ht : AllTyped (fun k : Qualifier Q × StatInst E => k.2) (m.map (fun e => ((e.qual, e.stat), e.buf))) := by
    intro x hx
    obtain ⟨e, he, rfl⟩ := List.mem_map.1 hx
    obtain ⟨v, _, hv, hs⟩ := r.mem he
    exact ⟨v, hv, hs⟩
  obtain ⟨h1, h2⟩ := debugAll_typed _ _ ht
  constructor
  · intro hn
    obtain ⟨l, hl, hf⟩ := h1 (by
      intro x hx
      obtain ⟨e, he, rfl⟩ := List.mem_map.1 hx
      exact hn e he)
    refine ⟨l.map (fun x => (x.1.1, x.2)), by simp [StatMap.debug, hl], ?_⟩
    rw [List.forall₂_map_right_iff]
    rw [List.forall₂_map_left_iff] at hf
    refine (List.forall₂_iff_get.2 ⟨hf.length_eq, fun i h1 h2 => ?_⟩)
    have hmem : List.get m ⟨i, h1⟩ ∈ m := List.get_mem _ _
    obtain ⟨hk, v, hv, hsh⟩ := (List.forall₂_iff_get.1 hf).2 i h1 h2
    refine ⟨by rw [hk], v, ?_, hsh⟩
    obtain ⟨v', ha, hv', _⟩ := r.mem hmem
    rw [r.get, ha]
    have hv : (List.get m ⟨i, h1⟩).buf = .val (List.get m ⟨i, h1⟩).stat.ty v := hv
    rw [hv] at hv'
    cases hv'
    rfl
  · intro er he
    simp only [StatMap.debug] at he
    cases hl : debugAll (fun k : Qualifier Q × StatInst E => k.2)
        (m.map (fun e => ((e.qual, e.stat), e.buf))) with
    | ok l => rw [hl] at he; cases he
    | error e' =>
      rw [hl] at he
      cases he
      obtain ⟨x, hx, hx'⟩ := h2 _ hl
      obtain ⟨e, he, rfl⟩ := List.mem_map.1 hx
      exact ⟨e, he, hx'⟩
end map

/-- a map of two entries is printed in order; entries of unnamed stats do not occur in the demo program -/
example : ∃ m, StatMap.run demoAddr
      [.insert (⟨0, 0⟩ : Qualifier (BitVec 8)) (demoFlag 1) (⟨3, 0⟩ : StatFlags (BitVec 8)),
       .insert ⟨0, 0⟩ (demoInt 0) (⟨7, 0, 10, 1⟩ : StatInt)] = .ok m ∧
    (m.debug.toOption.map (·.map (·.2.1))) = some ["int0", "flag1"] := ⟨_, rfl, rfl⟩

/-! ### the registered defaults -/

theorem HMap.get_of_mem {K B : Type} {eq : K → K → Bool} (he : ∀ a b, eq a b = true ↔ a = b) {m : HMap K B}
    (hn : (m.map (·.1)).Nodup) {k : K} {b : B} (h : (k, b) ∈ m) : HMap.get eq m k = some b := by
  induction m with
  | nil => cases h
  | cons x m ih =>
    obtain ⟨k', b'⟩ := x
    simp only [List.map_cons, List.nodup_cons] at hn
    rcases List.mem_cons.1 h with h | h
    · cases h
      simp [HMap.get, List.find?, (he k k).2 rfl]
    · have : k' ≠ k := by
        rintro rfl
        exact hn.1 (List.mem_map.2 ⟨_, h, rfl⟩)
      have hk : eq k' k = false := by
        cases h' : eq k' k
        · rfl
        · exact absurd ((he _ _).1 h') this
      have := ih hn.2 h
      simpa [HMap.get, List.find?, hk] using this

theorem HMap.keys_set {K B : Type} {eq : K → K → Bool} (m : HMap K B) (k : K) (b : B) :
    (HMap.set eq m k b).map (·.1) = m.map (·.1) := by
  simp only [HMap.set, List.map_map]
  refine List.map_congr_left (fun x _ => ?_)
  simp only [Function.comp]
  split_ifs <;> rfl

theorem HMap.nodup_insert {K B : Type} {eq : K → K → Bool} (he : ∀ a b, eq a b = true ↔ a = b) (m : HMap K B)
    (k : K) (b : B) (hn : (m.map (·.1)).Nodup) : ((HMap.insert eq m k b).1.map (·.1)).Nodup := by
  unfold HMap.insert
  split
  · rw [HMap.keys_set]; exact hn
  · rename_i h
    simp only [List.map_append, List.map_cons, List.map_nil]
    refine List.Nodup.append hn (by simp) ?_
    intro x hx hx'
    simp only [List.mem_singleton] at hx'
    subst hx'
    obtain ⟨y, hy, hyx⟩ := List.mem_map.1 hx
    have : HMap.get eq m x = some y.2 := HMap.get_of_mem he hn (by rw [← hyx]; exact hy)
    rw [h] at this
    cases this

/-- the keys of the registry stay distinct in every history -/
theorem Defaults.nodup_runFrom (os : List (DefOp E)) (d d' : Defaults E) (hn : (d.map (·.1)).Nodup)
    (h : Defaults.runFrom A d os = .ok d') : (d'.map (·.1)).Nodup := by
  induction os generalizing d with
  | nil => cases h; exact hn
  | cons o os ih =>
    simp only [Defaults.runFrom, Res.bind_eq_ok] at h
    obtain ⟨d1, h1, h2⟩ := h
    refine ih d1 ?_ h2
    have hp : ∀ (s : StatInst E) (o : StatOp s.sv), Defaults.patch A d s o = .ok d1 → (d1.map (·.1)).Nodup := by
      intro s o ho
      unfold Defaults.patch at ho
      split at ho
      · simp only [Res.bind_eq_ok] at ho
        obtain ⟨_, _, _, _, ho⟩ := ho
        cases ho
        rw [HMap.keys_set]; exact hn
      · simp only [Res.bind_eq_ok] at ho
        obtain ⟨_, _, _, _, ho⟩ := ho
        cases ho
        exact HMap.nodup_insert (StatInst.eq_iff A) _ _ _ hn
    cases o with
    | default s v =>
      simp only [Defaults.step, Defaults.insert, Res.bind_eq_ok] at h1
      obtain ⟨_, _, h1⟩ := h1
      cases h1
      exact HMap.nodup_insert (StatInst.eq_iff A) _ _ _ hn
    | min s b => exact hp _ _ h1
    | max s b => exact hp _ _ h1

/-- **C67**, partial: printing the defaults registered by any history in which bounds come after a default shows
every registered stat once, with the value a query would start from, and fails only if some stat has no name.
Missing: a bound registered first (`C67_refuted_defaults`). -/
theorem C67_defaults_partial (os : List (DefOp E)) (hos : DefOp.BoundsLast [] os) (d : Defaults E) (f : DMap E)
    (hf : DMap.run os = .ok f) (hd : Defaults.run A os = .ok d) :
    ((∀ s, (f s).isSome → Named s) → ∃ r, d.debug = .ok r ∧ List.Forall₂
      (fun x y => ∃ v, f x.1 = some v ∧ Shows x.1 v y) d r) ∧
    (∀ er, d.debug = .error er → ∃ s, (f s).isSome ∧ s.name = .error er) ∧
    (d.map (·.1)).Nodup ∧ ∀ s, (f s).isSome ↔ s ∈ d.map (·.1) := by
  have hr := DefRep.runFrom os [] hos (d := []) (f := DMap.empty) (A := A)
    (by intro s; exact ⟨rfl, fun h => by cases h⟩) (by simp)
  change ResRel _ (Defaults.run A os) (DMap.run os) at hr
  rw [hf, hd] at hr
  change DefRep A d f at hr
  have hn : (d.map (·.1)).Nodup := Defaults.nodup_runFrom A os [] d (by simp) hd
  have key : ∀ x ∈ d, ∃ v : x.1.Val, f x.1 = some v ∧ x.2 = .val x.1.ty v ∧ Storable (E.layout x.1.ty) := by
    intro x hx
    have h1 := HMap.get_of_mem (StatInst.eq_iff A) hn (show (x.1, x.2) ∈ d from hx)
    rw [(hr x.1).1, Option.map_eq_some_iff] at h1
    obtain ⟨v, hv, hb⟩ := h1
    exact ⟨v, hv, hb.symm, (hr x.1).2 (by simp [hv])⟩
  obtain ⟨h1, h2⟩ := debugAll_typed id d (fun x hx => (key x hx).imp fun v h => h.2)
  refine ⟨fun hnm => ?_, fun er he => ?_, hn, fun s => ⟨fun hs => ?_, fun hs => ?_⟩⟩
  · obtain ⟨r, hr', hfa⟩ := h1 (fun x hx => by
      obtain ⟨v, hv, _⟩ := key x hx
      exact hnm x.1 (by simp [hv]))
    refine ⟨r.map (·.2), by simp [Defaults.debug, hr'], ?_⟩
    rw [List.forall₂_map_right_iff]
    refine List.forall₂_iff_get.2 ⟨hfa.length_eq, fun i h3 h4 => ?_⟩
    obtain ⟨_, v, hv, hsh⟩ := (List.forall₂_iff_get.1 hfa).2 i h3 h4
    obtain ⟨w, hw, hb, _⟩ := key _ (List.get_mem d ⟨i, h3⟩)
    have hv : (List.get d ⟨i, h3⟩).2 = .val (List.get d ⟨i, h3⟩).1.ty v := hv
    rw [hb] at hv
    cases hv
    exact ⟨_, hw, hsh⟩
  · simp only [Defaults.debug] at he
    cases hl : debugAll id d with
    | ok l => rw [hl] at he; cases he
    | error e' =>
      rw [hl] at he
      cases he
      obtain ⟨x, hx, hx'⟩ := h2 _ hl
      obtain ⟨v, hv, _⟩ := key x hx
      exact ⟨x.1, by simp [hv], hx'⟩
  · obtain ⟨v, hv⟩ := Option.isSome_iff_exists.1 hs
    have h3 := (hr s).1
    rw [hv] at h3
    exact List.mem_map.2 ⟨_, HMap.mem_of_get (StatInst.eq_iff A) h3, rfl⟩
  · obtain ⟨x, hx, rfl⟩ := List.mem_map.1 hs
    obtain ⟨v, hv, _⟩ := key x hx
    simp [hv]

/-- C67 does not hold for a bound registered first: the stored operation is printed as if it were a value -/
theorem C67_refuted_defaults :
    ∃ d, Defaults.run demoAddr [.min (demoInt 0) (5 : Int)] = .ok d ∧ d.debug = .error .ub :=
  ⟨[(demoInt 0, .op true (.min (5 : Int)))], rfl, rfl⟩

example : ∃ d, Defaults.run demoAddr [.default (demoInt 0) ⟨1, 0, 5, 1⟩, .max (demoInt 0) (2 : Int),
      .default (demoFlag 2) (⟨3, 0⟩ : StatFlags (BitVec 8))] = .ok d ∧
    d.debug.toOption.map (·.map (·.1)) = some ["int0", "flag2"] := ⟨_, rfl, rfl⟩

/-! ### the cache -/
section cache
variable [Ord Q] [Std.TransOrd Q] [Std.LawfulEqOrd Q]

/-- **C67** Printing the cache after any history of queries, clears and changes, whatever the streams do, fails only
if some stat has no name, and otherwise shows each entry with its key and the value it holds. -/
theorem C67_cache (J : Joined E Q Ent) (evs : List (Event E Q Ent)) :
    ((∀ x ∈ (history A J [] evs).2, Named x.1.stat) → ∃ r, (history A J [] evs).2.debug = .ok r ∧
      List.Forall₂ (fun x y => y.1 = (x.1.entity, x.1.query) ∧ ∃ v, x.2 = .val x.1.stat.ty v ∧ Shows x.1.stat v y.2)
        (history A J [] evs).2 r) ∧
    (∀ er, (history A J [] evs).2.debug = .error er →
      ∃ x ∈ (history A J [] evs).2, x.1.stat.name = .error er) := by
  have ht := history_cacheTyped (A := A) evs J (c := []) (fun x hx => by cases hx)
  generalize (history A J [] evs).2 = c at ht ⊢
  obtain ⟨h1, h2⟩ := debugAll_typed CacheKey.stat c ht
  constructor
  · intro hn
    obtain ⟨r, hr, hf⟩ := h1 hn
    refine ⟨r.map (fun x => ((x.1.entity, x.1.query), x.2)), by simp [Cache.debug, hr], ?_⟩
    rw [List.forall₂_map_right_iff]
    exact hf.imp fun _ _ h => ⟨by rw [h.1], h.2⟩
  · intro er he
    simp only [Cache.debug] at he
    cases hl : debugAll CacheKey.stat c with
    | ok l => rw [hl] at he; cases he
    | error e' =>
      rw [hl] at he
      cases he
      exact h2 _ hl

/-- after one query the demo cache shows its one entry -/
example : ((history demoAddr demoJoined [] [.query 1 (.stat 0 demoQ (demoInt 0))]).2.debug.toOption.map
      (·.map fun y => (y.1.1, y.2.1))) = some [(0, "int0")] := rfl
end cache

/-- **C67** A pair built by `StatValuePair::new` prints the name and the value it was given. -/
theorem C67_pair (s : StatInst E) (v : s.Val) (p : Pair E) (h : Pair.new s v = .ok p) (n : String)
    (hn : s.name = .ok n) : p.debug = .ok (n, ⟨s.ty, v⟩) := by
  simp only [Pair.new, Buf.from_eq] at h
  split_ifs at h with hs
  · cases h
    simpa [Pair.debug] using (debugOne_typed hs).1 n hn
  · cases h

example : ∃ p, Pair.new (demoInt 3) ⟨7, 0, 10, 1⟩ = .ok p ∧
    p.debug.toOption.map (·.1) = some "int3" := ⟨_, rfl, rfl⟩

end BSQ
