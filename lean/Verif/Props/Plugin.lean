import Verif.Spec.Plugin
import Verif.Proofs.HMap
import Verif.Props.Cast
/-!
# C41: stat registry; C42: registered defaults and bounds; C60: world and app extensions
-/
namespace BSQ
variable {E : Env} (A : Addr E)

/-! ### C41 -/
section deserializers
open Deserializers

theorem beqStr (a b : String) : (a == b) = true ↔ a = b := by simp

theorem Deserializers.get_insert (r : Deserializers E) (n m : String) (s : StatInst E) :
    Deserializers.get (HMap.insert (· == ·) r n s).1 m = if n = m then some s else Deserializers.get r m :=
  HMap.get_insert (eq := fun a b => a == b) beqStr r n m s

theorem Deserializers.register1_eq {T : E.S} (r : Deserializers E) (x : E.Sel T) :
    register1 A r x = match get r (E.statName x) with
      | some s => if s = E.asEntry x then .ok r else .error .panic
      | none => .ok (HMap.insert (· == ·) r (E.statName x) (E.asEntry x)).1 := by
  unfold register1
  cases get r (E.statName x) with
  | none => rfl
  | some s =>
    simp only
    by_cases h : s = E.asEntry x
    · simp [h, (StatInst.eq_iff A _ _).2 rfl]
    · have : s.eq A (E.asEntry x) = false := by rw [← Bool.not_eq_true, StatInst.eq_iff]; exact h
      simp [h, this]

theorem registerAll_spec {T : E.S} (xs : List (E.Sel T)) (r r' : Deserializers E)
    (h : registerAll A xs r = .ok r') :
    (∀ x ∈ xs, get r' (E.statName x) = some (E.asEntry x)) ∧
    (∀ n s, get r n = some s → get r' n = some s) ∧
    (∀ n, (∀ x ∈ xs, E.statName x ≠ n) → get r' n = get r n) := by
  induction xs generalizing r with
  | nil =>
    simp only [registerAll, Except.ok.injEq] at h
    subst h
    simp
  | cons x xs ih =>
    simp only [registerAll, Res.bind_eq_ok] at h
    obtain ⟨r1, h1, h2⟩ := h
    obtain ⟨i1, i2, i3⟩ := ih r1 h2
    rw [register1_eq] at h1
    have hx : get r1 (E.statName x) = some (E.asEntry x) ∧ (∀ n s, get r n = some s → get r1 n = some s) ∧
        (∀ n, E.statName x ≠ n → get r1 n = get r n) := by
      cases hg : get r (E.statName x) with
      | some s =>
        simp only [hg] at h1
        split at h1
        · rename_i hs
          simp only [Except.ok.injEq] at h1
          subst h1
          exact ⟨hs ▸ hg, fun _ _ h => h, fun _ _ => rfl⟩
        · cases h1
      | none =>
        simp only [hg, Except.ok.injEq] at h1
        subst h1
        refine ⟨by simp [get_insert], ?_, ?_⟩
        · intro n s hn
          rw [get_insert]
          by_cases he : E.statName x = n
          · subst he; rw [hg] at hn; cases hn
          · simp [he, hn]
        · intro n he
          simp [get_insert, he]
    refine ⟨?_, fun n s hn => i2 n s (hx.2.1 n s hn), ?_⟩
    · intro y hy
      rcases List.mem_cons.1 hy with rfl | hy
      · exact i2 _ _ hx.1
      · exact i1 y hy
    · intro n hn
      rw [i3 n (fun y hy => hn y (by simp [hy])), hx.2.2 n (hn x (by simp))]

/-- C41: after a successful registration each value of `T` is found under its name; what was registered
before is still found, and other names are unaffected -/
theorem C41_register_finds (T : E.S) (r r' : Deserializers E) (h : register A T r = .ok r') :
    (∀ x ∈ E.values T, get r' (E.statName x) = some (E.asEntry x)) ∧
    (∀ n s, get r n = some s → get r' n = some s) ∧
    (∀ n, (∀ x ∈ E.values T, E.statName x ≠ n) → get r' n = get r n) :=
  registerAll_spec A (E.values T) r r' h

theorem registerAll_known {T : E.S} (xs : List (E.Sel T)) (r : Deserializers E)
    (h : ∀ x ∈ xs, get r (E.statName x) = some (E.asEntry x)) : registerAll A xs r = .ok r := by
  induction xs with
  | nil => rfl
  | cons x xs ih =>
    simp only [registerAll, register1_eq, h x (by simp), if_true, Res.bind_ok]
    exact ih (fun y hy => h y (by simp [hy]))

/-- C41: registering again changes nothing, also after other registrations -/
theorem C41_register_idempotent (T : E.S) (r r' : Deserializers E) (h : register A T r = .ok r') :
    register A T r' = .ok r' :=
  registerAll_known A _ _ (C41_register_finds A T r r' h).1

/-- C41: registering `T` succeeds iff no name of `T` is taken by a different stat, or shared by different
stats of `T`; otherwise it panics -/
theorem C41_register_ok_iff (T : E.S) (r : Deserializers E) :
    ((∃ r', register A T r = .ok r') ↔
      (∀ x ∈ E.values T, ∀ s, get r (E.statName x) = some s → s = E.asEntry x) ∧
      (∀ x ∈ E.values T, ∀ y ∈ E.values T, E.statName x = E.statName y → E.asEntry x = E.asEntry y)) ∧
    (∀ e, register A T r = .error e → e = .panic) := by
  have panicOnly : ∀ (xs : List (E.Sel T)) (r : Deserializers E) e,
      registerAll A xs r = .error e → e = .panic := by
    intro xs
    induction xs with
    | nil => intro r e h; simp [registerAll] at h
    | cons x xs ih =>
      intro r e h
      simp only [registerAll] at h
      cases h1 : register1 A r x with
      | ok r1 => rw [h1] at h; exact ih r1 e h
      | error e1 =>
        rw [h1] at h
        simp only [Res.bind_error, Except.error.injEq] at h
        subst h
        rw [register1_eq] at h1
        split at h1
        · split at h1
          · cases h1
          · simpa using h1.symm
        · cases h1
  refine ⟨⟨?_, ?_⟩, panicOnly _ r⟩
  · rintro ⟨r', h⟩
    obtain ⟨h1, h2, _⟩ := C41_register_finds A T r r' h
    refine ⟨fun x hx s hs => ?_, fun x hx y hy hn => ?_⟩
    · have a := h1 x hx
      rw [h2 _ _ hs] at a
      simpa using a
    · have a := h1 x hx
      rw [hn, h1 y hy] at a
      simpa using a.symm
  · rintro ⟨h1, h2⟩
    unfold register
    generalize E.values T = xs at h1 h2
    induction xs generalizing r with
    | nil => exact ⟨r, rfl⟩
    | cons x xs ih =>
      have hr1 : ∃ r1, register1 A r x = .ok r1 ∧
          ∀ y ∈ xs, ∀ s, get r1 (E.statName y) = some s → s = E.asEntry y := by
        rw [register1_eq]
        cases hg : get r (E.statName x) with
        | some s =>
          refine ⟨r, by simp [h1 x (by simp) s hg], fun y hy => h1 y (by simp [hy])⟩
        | none =>
          refine ⟨_, rfl, ?_⟩
          intro y hy s hs
          rw [get_insert] at hs
          by_cases hn : E.statName x = E.statName y
          · simp only [hn, if_true, Option.some.injEq] at hs
            rw [← hs]
            exact h2 x (by simp) y (by simp [hy]) hn
          · simp only [hn, if_false] at hs
            exact h1 y (by simp [hy]) s hs
      obtain ⟨r1, e1, h3⟩ := hr1
      obtain ⟨r', e2⟩ := ih r1 h3 (fun a ha b hb => h2 a (by simp [ha]) b (by simp [hb]))
      exact ⟨r', by simp [registerAll, e1, e2]⟩

/-- C41: `register_replace` never fails; a name is then bound to the last value of `T` with that name, or to
what it was bound to before -/
theorem C41_replace (T : E.S) (r : Deserializers E) (n : String) :
    get (registerReplace T r) n =
      (((E.values T).reverse.find? (fun x => E.statName x = n)).map E.asEntry).or (get r n) := by
  unfold registerReplace
  generalize E.values T = xs
  induction xs generalizing r with
  | nil => rfl
  | cons x xs ih =>
    rw [replaceAll, ih, get_insert, List.reverse_cons, List.find?_append]
    cases xs.reverse.find? (fun x => E.statName x = n) with
    | some y => simp
    | none => by_cases h : E.statName x = n <;> simp [h]

/-- C41: so when values of `T` have different names, each is the one found under its name -/
theorem C41_replace_finds (T : E.S) (r : Deserializers E)
    (hn : ∀ x ∈ E.values T, ∀ y ∈ E.values T, E.statName x = E.statName y → E.asEntry x = E.asEntry y)
    (x : E.Sel T) (hx : x ∈ E.values T) : get (registerReplace T r) (E.statName x) = some (E.asEntry x) := by
  rw [C41_replace]
  cases h : (E.values T).reverse.find? (fun y => E.statName y = E.statName x) with
  | none =>
    have := List.find?_eq_none.1 h x (by simpa using hx)
    simp at this
  | some y =>
    have h1 := List.find?_some h
    have h2 := List.mem_of_find?_eq_some h
    simp only [decide_eq_true_eq] at h1
    simp [hn y (by simpa using h2) x hx h1]

/-- both kinds of registration happen: a clash panics in `register` and is replaced by `register_replace` -/
example : register demoAddr true [("int1", demoFlag 0)] = .error .panic := by decide +kernel
example : (register demoAddr true [("int1", demoInt 1)]).toOption.isSome = true := by decide +kernel
example : get (registerReplace (E := demo) true [("int1", demoFlag 0)]) "int1" = some (demoInt 1) := by
  decide +kernel
end deserializers

/-! ### C42 -/

/-- the registry holds exactly the values of the plain map -/
def DefRep (d : Defaults E) (f : DMap E) : Prop :=
  ∀ s, HMap.get (StatInst.eq A) d s = (f s).map (.val s.ty) ∧ ((f s).isSome → Storable (E.layout s.ty))

theorem DefRep.store {A : Addr E} {d : Defaults E} {f : DMap E} (h : DefRep A d f) (s : StatInst E) (v : s.Val)
    (hs : Storable (E.layout s.ty)) :
    DefRep A (HMap.insert (StatInst.eq A) d s (.val s.ty v)).1
      (fun t => if h : t = s then some (h ▸ v) else f t) := by
  intro t
  rw [HMap.get_insert (StatInst.eq_iff A)]
  by_cases hts : t = s
  · subst hts; simp [hs]
  · have : ¬ s = t := fun h => hts h.symm
    simp only [this, if_false, hts, dite_false]
    exact h t

theorem DefRep.overwrite {A : Addr E} {d : Defaults E} {f : DMap E} (h : DefRep A d f) (s : StatInst E)
    (v : s.Val) (hp : (f s).isSome) :
    DefRep A (HMap.set (StatInst.eq A) d s (.val s.ty v))
      (fun t => if h : t = s then some (h ▸ v) else f t) := by
  intro t
  rw [HMap.get_set (StatInst.eq_iff A)]
  by_cases hts : t = s
  · subst hts
    obtain ⟨w, hw⟩ := Option.isSome_iff_exists.1 hp
    simp [(h t).1, hw, (h t).2 hp]
  · have : ¬ s = t := fun h => hts h.symm
    simp only [this, if_false, hts, dite_false]
    exact h t

theorem DefRep.patch {A : Addr E} {d : Defaults E} {f : DMap E} (h : DefRep A d f) (s : StatInst E)
    (o : StatOp s.sv) (hp : (f s).isSome) :
    ResRel (DefRep A) (Defaults.patch A d s o) (o.writeTo (f.value s) >>= fun v => f.store s v) := by
  obtain ⟨w, hw⟩ := Option.isSome_iff_exists.1 hp
  have hs := (h s).2 hp
  unfold Defaults.patch
  rw [(h s).1, hw]
  simp only [Option.map_some, Buf.read_val, hs, Res.bind_ok, DMap.value, hw, Option.getD_some]
  refine ResRel.bind_same _ (fun v => ?_)
  simp only [DMap.store, hs, if_true]
  exact h.overwrite s v hp

theorem DefRep.step {A : Addr E} {d : Defaults E} {f : DMap E} (h : DefRep A d f) (o : DefOp E)
    (ho : (∃ v, o = .default o.stat v) ∨ (f o.stat).isSome) :
    ResRel (DefRep A) (Defaults.step A d o) (f.step o) := by
  cases o with
  | default s v =>
    simp only [Defaults.step, Defaults.insert, DMap.step, DMap.store, Buf.from_eq]
    by_cases hs : Storable (E.layout s.ty)
    · simp only [hs, if_true, Res.bind_ok]
      exact h.store s v hs
    · simp only [hs, if_false, Res.bind_error]
      rfl
  | min s b =>
    rcases ho with ⟨v, hv⟩ | ho
    · cases hv
    · exact h.patch s (.min b) ho
  | max s b =>
    rcases ho with ⟨v, hv⟩ | ho
    · cases hv
    · exact h.patch s (.max b) ho

theorem DMap.step_known {f f' : DMap E} {o : DefOp E} (h : f.step o = .ok f') (s : StatInst E)
    (hs : (f s).isSome ∨ s = o.stat) : (f' s).isSome := by
  have key : ∀ (t : StatInst E) (v : t.Val), f.store t v = .ok f' → ((f s).isSome ∨ s = t) → (f' s).isSome := by
    intro t v ht hst
    unfold DMap.store at ht
    split at ht
    · simp only [Except.ok.injEq] at ht
      subst ht
      by_cases he : s = t
      · subst he; simp
      · simp only [he, dite_false]
        rcases hst with h | h
        · exact h
        · exact absurd h he
    · cases ht
  cases o with
  | default t v => exact key t v h hs
  | min t b =>
    simp only [DMap.step, Res.bind_eq_ok] at h
    obtain ⟨v, _, h⟩ := h
    exact key t v h hs
  | max t b =>
    simp only [DMap.step, Res.bind_eq_ok] at h
    obtain ⟨v, _, h⟩ := h
    exact key t v h hs

theorem DefRep.runFrom {A : Addr E} (os : List (DefOp E)) (known : List (StatInst E))
    (hos : DefOp.BoundsLast known os) {d : Defaults E} {f : DMap E} (h : DefRep A d f)
    (hk : ∀ s ∈ known, (f s).isSome) : ResRel (DefRep A) (Defaults.runFrom A d os) (f.runFrom os) := by
  induction os generalizing known d f with
  | nil => exact h
  | cons o os ih =>
    simp only [Defaults.runFrom, DMap.runFrom]
    have hstep : (∃ v, o = .default o.stat v) ∨ (f o.stat).isSome := by
      cases o with
      | default s v => exact .inl ⟨v, rfl⟩
      | min s b => exact .inr (hk s hos.1)
      | max s b => exact .inr (hk s hos.1)
    have hr := h.step o hstep
    revert hr
    cases h1 : Defaults.step A d o with
    | error e =>
      cases h2 : f.step o with
      | error e' => intro hr; simpa [ResRel] using hr
      | ok f' => intro hr; exact hr.elim
    | ok d' =>
      cases h2 : f.step o with
      | error e' => intro hr; exact hr.elim
      | ok f' =>
        intro hr
        simp only [Res.bind_ok]
        cases o with
        | default s v =>
          refine ih (s :: known) hos hr ?_
          intro t ht
          rcases List.mem_cons.1 ht with rfl | ht
          · exact DMap.step_known h2 _ (.inr rfl)
          · exact DMap.step_known h2 _ (.inl (hk t ht))
        | min s b => exact ih known hos.2 hr (fun t ht => DMap.step_known h2 _ (.inl (hk t ht)))
        | max s b => exact ih known hos.2 hr (fun t ht => DMap.step_known h2 _ (.inl (hk t ht)))

/-- what is read back -/
theorem DefRep.get {A : Addr E} {d : Defaults E} {f : DMap E} (h : DefRep A d f) (s : StatInst E) :
    Defaults.get A d s = .ok (f.value s) ∧
    (Storable (E.layout s.ty) → Defaults.getDyn A d s = .ok (.val s.ty (f.value s))) := by
  unfold Defaults.get Defaults.getDyn DMap.value
  rw [(h s).1]
  cases hf : f s with
  | none =>
    refine ⟨rfl, fun hs => ?_⟩
    have hs' : Storable (E.layout (E.valTy s.vt)) := hs
    simp [Defaults.cloned, vtDefault, Buf.from_eq, hs']
  | some v =>
    have hs := (h s).2 (by simp [hf])
    simp [Buf.read_val, hs, Defaults.cloned, vtClone_val, vtDefault, Buf.from_eq]

/-- C42, partial: in any history where bounds are registered for stats that have been given a default before,
the registry returns the last default with the later bounds applied, and the type's default for other stats;
it panics exactly when it should.  Missing: bounds for a stat without a registered default
(`C42_refuted_bound_first`). -/
theorem C42_history_partial (os : List (DefOp E)) (hos : DefOp.BoundsLast [] os) :
    (∀ f, DMap.run os = .ok f → ∃ d, Defaults.run A os = .ok d ∧ ∀ s,
      Defaults.get A d s = .ok (f.value s) ∧
      (Storable (E.layout s.ty) → Defaults.getDyn A d s = .ok (.val s.ty (f.value s)))) ∧
    (∀ e, DMap.run os = .error e → Defaults.run A os = .error e) := by
  have h := DefRep.runFrom os [] hos (d := []) (f := DMap.empty) (A := A)
    (by intro s; exact ⟨rfl, fun h => by cases h⟩) (by simp)
  change ResRel _ (Defaults.run A os) (DMap.run os) at h
  constructor
  · intro f hf
    rw [hf] at h
    cases hd : Defaults.run A os with
    | ok d => rw [hd] at h; exact ⟨d, rfl, DefRep.get h⟩
    | error e => rw [hd] at h; exact h.elim
  · intro e he
    rw [he] at h
    cases hd : Defaults.run A os with
    | ok d => rw [hd] at h; exact h.elim
    | error e' => rw [hd] at h; simpa [ResRel] using h

/-- C42 does not hold for a bound registered first: `register_stat_min(stat, 5)` stores the operation, and
reading the default back, from the registry or in a query, or dropping the registry, reads it as a value. -/
theorem C42_refuted_bound_first :
    ∃ d, Defaults.run demoAddr [.min (demoInt 0) (5 : Int)] = .ok d ∧
      Defaults.get demoAddr d (demoInt 0) = .error .ub ∧
      Defaults.getDyn demoAddr d (demoInt 0) = .error .ub ∧
      Defaults.drop d = .error .ub ∧
      ∃ f, DMap.run [DefOp.min (E := demo) (demoInt 0) (5 : Int)] = .ok f ∧
        f.value (demoInt 0) = ⟨0, 5, 2147483647, 1⟩ :=
  ⟨[(demoInt 0, .op true (.min (5 : Int)))], rfl, rfl, rfl, rfl, _, rfl, rfl⟩

/-- C42: the same for any stat whose operations fit the buffer and any bound: reading is undefined behaviour -/
theorem C42_refuted_bound_first_general (d : Defaults E) (s : StatInst E) (b : s.sv.BoundsT) (v : s.Val)
    (hn : HMap.get (StatInst.eq A) d s = none) (hb : s.sv.min s.sv.default b = .ok v)
    (ho : Storable (E.opLayout s.ty)) (hs : Storable (E.layout s.ty)) :
    ∃ d', Defaults.patch A d s (.min b) = .ok d' ∧ Defaults.get A d' s = .error .ub := by
  refine ⟨(HMap.insert (StatInst.eq A) d s (.op s.ty (.min b))).1, ?_, ?_⟩
  · simp [Defaults.patch, hn, StatOp.writeTo, hb, Buf.fromOp, validate_eq, ho]
  · unfold Defaults.get
    rw [HMap.get_insert (StatInst.eq_iff A)]
    simp [Buf.read, validate_eq, hs, Buf.get]

/-- a history with defaults, bounds and a second default -/
example : ∃ os : List (DefOp demo), os.length = 4 ∧ DefOp.BoundsLast [] os ∧ ∃ f, DMap.run os = .ok f ∧
    f.value (demoInt 0) = ⟨7, 3, 2147483647, 1⟩ ∧ f.value (demoInt 1) = ⟨0, -2147483648, 2147483647, 1⟩ :=
  ⟨[.default (demoInt 0) ⟨1, 0, 5, 1⟩, .max (demoInt 0) (2 : Int),
    .default (demoInt 0) ⟨7, 0, 2147483647, 1⟩, .min (demoInt 0) (3 : Int)], rfl,
    ⟨by simp, by simp, trivial⟩, _, rfl, rfl, rfl⟩

/-! ### C60 -/
section resources
variable {Q Ent G : Type}

/-- C60: clearing through `World`/`App` panics without a cache; through a query it does nothing then -/
theorem C60_clear_without_cache (w : Resources E Q Ent G) (h : w.cache = none) :
    w.clearStatCache = .error .panic ∧ w.clearCache = .ok w := by
  simp [Resources.clearStatCache, Resources.clearCache, h]

/-- a cache holds values of the right types -/
def CacheTyped (c : Cache E Q Ent) : Prop :=
  ∀ x ∈ c, ∃ v : x.1.stat.Val, x.2 = .val x.1.stat.ty v ∧ Storable (E.layout x.1.stat.ty)

theorem CacheTyped.dropAll {c : Cache E Q Ent} (h : CacheTyped c) : c.dropAll = .ok () := by
  induction c with
  | nil => rfl
  | cons x c ih =>
    obtain ⟨k, b⟩ := x
    obtain ⟨v, hv, hs⟩ := h (k, b) (by simp)
    change k.stat.Val at v
    change b = .val k.stat.ty v at hv
    change Storable (E.layout k.stat.ty) at hs
    subst hv
    rw [Cache.dropAll, vtDrop_val hs, Res.bind_ok]
    exact ih (fun y hy => h y (by simp [hy]))

/-- C60: with a cache both empty it and leave everything else alone -/
theorem C60_clear_with_cache (w : Resources E Q Ent G) (c : Cache E Q Ent) (h : w.cache = some c)
    (hc : CacheTyped c) :
    w.clearStatCache = .ok { w with cache := some [] } ∧ w.clearCache = .ok { w with cache := some [] } := by
  simp [Resources.clearStatCache, Resources.clearCache, h, Cache.clear, hc.dropAll]

/-- C60: each registration creates its own resource when missing and leaves the others alone -/
theorem C60_register (w w' : Resources E Q Ent G) :
    (∀ T, w.registerStat A T = .ok w' →
      w'.deserializers.isSome ∧ w'.defaults = w.defaults ∧ w'.relations = w.relations ∧ w'.cache = w.cache ∧
      Deserializers.register A T (w.deserializers.getD []) = .ok (w'.deserializers.getD [])) ∧
    (∀ s v, w.registerStatDefault A s v = .ok w' →
      w'.defaults.isSome ∧ w'.deserializers = w.deserializers ∧ w'.relations = w.relations ∧
      w'.cache = w.cache ∧ Defaults.step A (w.defaults.getD []) (.default s v) = .ok (w'.defaults.getD [])) ∧
    (∀ s b, w.registerStatMin A s b = .ok w' →
      w'.defaults.isSome ∧ w'.deserializers = w.deserializers ∧ w'.relations = w.relations ∧
      w'.cache = w.cache ∧ Defaults.step A (w.defaults.getD []) (.min s b) = .ok (w'.defaults.getD [])) ∧
    (∀ s b, w.registerStatMax A s b = .ok w' →
      w'.defaults.isSome ∧ w'.deserializers = w.deserializers ∧ w'.relations = w.relations ∧
      w'.cache = w.cache ∧ Defaults.step A (w.defaults.getD []) (.max s b) = .ok (w'.defaults.getD [])) ∧
    (∀ g, (w.registerStatRelation g).relations = some (w.relations.getD [] ++ [g]) ∧
      (w.registerStatRelation g).defaults = w.defaults ∧
      (w.registerStatRelation g).deserializers = w.deserializers ∧
      (w.registerStatRelation g).cache = w.cache) := by
  refine ⟨?_, ?_, ?_, ?_, ?_⟩
  · intro T h
    simp only [Resources.registerStat, Res.bind_eq_ok] at h
    obtain ⟨r, h1, h2⟩ := h
    simp only [Except.ok.injEq] at h2
    subst h2
    simp [h1]
  · intro s v h
    simp only [Resources.registerStatDefault, Res.bind_eq_ok] at h
    obtain ⟨r, h1, h2⟩ := h
    simp only [Except.ok.injEq] at h2
    subst h2
    simp [h1, Defaults.step]
  · intro s v h
    simp only [Resources.registerStatMin, Res.bind_eq_ok] at h
    obtain ⟨r, h1, h2⟩ := h
    simp only [Except.ok.injEq] at h2
    subst h2
    simp [h1, Defaults.step]
  · intro s v h
    simp only [Resources.registerStatMax, Res.bind_eq_ok] at h
    obtain ⟨r, h1, h2⟩ := h
    simp only [Except.ok.injEq] at h2
    subst h2
    simp [h1, Defaults.step]
  · intro g
    simp [Resources.registerStatRelation]

/-- a cache with one value, typed -/
example : CacheTyped (E := demo) (Q := BitVec 8) (Ent := Nat)
    [(⟨0, .aggregate 0#8, demoInt 0⟩, .val true ⟨1, 2, 3, 4⟩)] := by
  rintro x (_ | ⟨_, h⟩)
  · exact ⟨⟨1, 2, 3, 4⟩, rfl, by decide⟩
  · cases h

end resources
end BSQ
