import Verif.Props.Debug
import Verif.Props.Plugin
import Verif.Props.Multimap
/-!
# C80: containers drop every value they hold, at its own type
-/
set_option linter.unusedSectionVars false
namespace BSQ
variable {E : Env} {Q Ent : Type} [DecidableEq Q] [DecidableEq Ent] (A : Addr E)

/-- a buffer holds a value of the stat's type, and that type fits in a buffer -/
def HoldsOwn (s : StatInst E) (b : Buf E) : Prop :=
  (∃ v : s.Val, b = .val s.ty v) ∧ Storable (E.layout s.ty)

theorem vtDrop_iff (s : StatInst E) (b : Buf E) : vtDrop s.vt b = .ok () ↔ HoldsOwn s b := by
  constructor
  · intro h
    unfold vtDrop at h
    rw [Res.bind_eq_ok] at h
    obtain ⟨x, hx, -⟩ := h
    unfold Buf.read at hx
    rw [Res.bind_eq_ok] at hx
    obtain ⟨_, hv, hg⟩ := hx
    rw [validate_eq] at hv
    have hs : Storable (E.layout s.ty) := by
      by_contra hn
      rw [if_neg hn] at hv
      cases hv
    refine ⟨?_, hs⟩
    cases b with
    | op u o => cases hg
    | val u y =>
      rw [Buf.get] at hg
      split at hg
      · rename_i hu
        subst hu
        exact ⟨y, rfl⟩
      · cases hg
  · rintro ⟨⟨v, rfl⟩, hs⟩
    exact vtDrop_val hs v

/-- C80: dropping or clearing a map succeeds exactly if each entry holds a value of its stat's type; in particular
every entry is dropped. -/
theorem C80_map_iff (m : StatMap E Q) :
    (StatMap.dropAll m = .ok () ↔ ∀ e ∈ m, HoldsOwn e.stat e.buf) ∧
    (StatMap.clear m = .ok [] ↔ ∀ e ∈ m, HoldsOwn e.stat e.buf) := by
  have h : StatMap.dropAll m = .ok () ↔ ∀ e ∈ m, HoldsOwn e.stat e.buf := by
    induction m with
    | nil => simp [StatMap.dropAll]
    | cons e m ih =>
      rw [StatMap.dropAll, Res.bind_eq_ok, List.forall_mem_cons, ← vtDrop_iff, ← ih]
      exact ⟨fun ⟨_, h1, h2⟩ => ⟨h1, h2⟩, fun ⟨h1, h2⟩ => ⟨(), h1, h2⟩⟩
  refine ⟨h, ?_⟩
  rw [← h, StatMap.clear, Res.bind_eq_ok]
  exact ⟨fun ⟨_, h1, _⟩ => h1, fun h1 => ⟨(), h1, rfl⟩⟩

/-- C80, the registered defaults -/
theorem C80_defaults_iff (d : Defaults E) : Defaults.drop d = .ok () ↔ ∀ x ∈ d, HoldsOwn x.1 x.2 := by
  induction d with
  | nil => simp [Defaults.drop]
  | cons x d ih =>
    obtain ⟨s, b⟩ := x
    rw [Defaults.drop, Res.bind_eq_ok, List.forall_mem_cons, ← vtDrop_iff, ← ih]
    exact ⟨fun ⟨_, h1, h2⟩ => ⟨h1, h2⟩, fun ⟨h1, h2⟩ => ⟨(), h1, h2⟩⟩

/-- C80, the cache -/
theorem C80_cache_iff (c : Cache E Q Ent) :
    (Cache.dropAll c = .ok () ↔ ∀ x ∈ c, HoldsOwn x.1.stat x.2) ∧
    (Cache.clear c = .ok [] ↔ ∀ x ∈ c, HoldsOwn x.1.stat x.2) := by
  have h : Cache.dropAll c = .ok () ↔ ∀ x ∈ c, HoldsOwn x.1.stat x.2 := by
    induction c with
    | nil => simp [Cache.dropAll]
    | cons x c ih =>
      obtain ⟨k, b⟩ := x
      rw [Cache.dropAll, Res.bind_eq_ok, List.forall_mem_cons, ← vtDrop_iff, ← ih]
      exact ⟨fun ⟨_, h1, h2⟩ => ⟨h1, h2⟩, fun ⟨h1, h2⟩ => ⟨(), h1, h2⟩⟩
  refine ⟨h, ?_⟩
  rw [← h, Cache.clear, Res.bind_eq_ok]
  exact ⟨fun ⟨_, h1, _⟩ => h1, fun h1 => ⟨(), h1, rfl⟩⟩

section map
variable [Ord Q] [Std.TransOrd Q] [Std.LawfulEqOrd Q]

/-- **C80** Whatever was done to a map, in bulk or one by one, dropping it drops each value at its own type. -/
theorem C80_map (h : List (MultiOp E Q)) (m : StatMap E Q) (hm : StatMap.multiRun A [] h = .ok m) :
    StatMap.dropAll m = .ok () := by
  have := (BRep.nil (E := E) (Q := Q) (A := A)).run h
  rw [hm] at this
  obtain ⟨l, r, -⟩ := this
  refine (C80_map_iff m).1.2 fun e he => ?_
  obtain ⟨x, h1, h2⟩ := r.bufs e he
  exact ⟨⟨x, h1⟩, h2⟩
end map

/-- **C80**, partial: dropping the defaults after any history in which bounds come after a default.  Missing: a bound
registered first, which stores an operation that is then dropped as a value (`C80_refuted`). -/
theorem C80_defaults_partial (os : List (DefOp E)) (hos : DefOp.BoundsLast [] os) (d : Defaults E)
    (hd : Defaults.run A os = .ok d) : Defaults.drop d = .ok () := by
  have hr := DefRep.runFrom os [] hos (d := []) (f := DMap.empty) (A := A)
    (by intro s; exact ⟨rfl, fun h => by cases h⟩) (by simp)
  change ResRel _ (Defaults.run A os) (DMap.run os) at hr
  rw [hd] at hr
  cases hf : DMap.run os with
  | error e => rw [hf] at hr; exact hr.elim
  | ok f =>
    rw [hf] at hr
    change DefRep A d f at hr
    have hn : (d.map (·.1)).Nodup := Defaults.nodup_runFrom A os [] d (by simp) hd
    refine (C80_defaults_iff d).2 fun x hx => ?_
    have h1 := HMap.get_of_mem (StatInst.eq_iff A) hn (show (x.1, x.2) ∈ d from hx)
    rw [(hr x.1).1, Option.map_eq_some_iff] at h1
    obtain ⟨v, hv, hb⟩ := h1
    exact ⟨⟨v, hb.symm⟩, (hr x.1).2 (by simp [hv])⟩

/-- **C80 is refuted** for a bound registered before any default. -/
theorem C80_refuted :
    ∃ d, Defaults.run demoAddr [.min (demoInt 0) (5 : Int)] = .ok d ∧ Defaults.drop d = .error .ub :=
  ⟨[(demoInt 0, .op true (.min (5 : Int)))], rfl, rfl⟩

section cache
variable [Ord Q] [Std.TransOrd Q] [Std.LawfulEqOrd Q]

/-- **C80** Dropping the cache after any history of queries, clears and changes, whatever the streams do. -/
theorem C80_cache (J : Joined E Q Ent) (evs : List (Event E Q Ent)) : (history A J [] evs).2.dropAll = .ok () :=
  CacheTyped.dropAll (history_cacheTyped (A := A) evs J (fun x hx => by cases hx))

/-- a stream replaces the pair by one of another type, so that the query misreads the value; the cache holds a value
of the right type and is dropped -/
example : ((history demoAddr (demoWorld.withComponent demoRetype) []
      [.query 1 (.stat 0 demoQ (demoInt 0))]).1.map fun o => o.res.toOption.isSome) = [false] ∧
    (history demoAddr (demoWorld.withComponent demoRetype) [] [.query 1 (.stat 0 demoQ (demoInt 0))]).2.length = 1 :=
  ⟨rfl, rfl⟩
end cache

/-- C80: a map with two entries and defaults with a bound, dropped -/
example : (∃ m, StatMap.multiRun demoAddr (Q := BitVec 8) []
      [.one (.insert ⟨0, 0⟩ (demoFlag 1) ⟨0, 5⟩),
        .extend true [(⟨1, 0⟩, 0, ⟨6, 0, 9, 1⟩), (⟨1, 0⟩, 0, ⟨6, 0, 9, 1⟩)]] = .ok m ∧ m.length = 3) ∧
    ∃ d, DefOp.BoundsLast [] [.default (demoInt 0) ⟨1, 0, 5, 1⟩, .max (demoInt 0) (2 : Int)] ∧
      Defaults.run demoAddr [.default (demoInt 0) ⟨1, 0, 5, 1⟩, .max (demoInt 0) (2 : Int)] = .ok d ∧ d.length = 1 :=
  ⟨⟨_, rfl, by simp [Vec.sorted, Vec.put, Vec.search, binarySearchBy]⟩, _, ⟨by simp, trivial⟩, rfl, rfl⟩

end BSQ
