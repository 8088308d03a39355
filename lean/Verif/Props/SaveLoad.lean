import Verif.Props.SerdeTypes
import Verif.Props.Plugin
/-!
# C66: registering stat types is what saving and loading needs
-/
set_option linter.unusedSectionVars false
namespace BSQ
variable {E : Env} {Q : Type} [DecidableEq Q] [Ord Q] [Std.TransOrd Q] [Std.LawfulEqOrd Q] (A : Addr E)
variable {Ent G : Type} [DecidableEq Ent]

/-- where `world.load` runs (stat.rs:263-264): in the scope of the world's resources -/
def Resources.scope (w : Resources E Q Ent G) : DeScope E :=
  match w.deserializers with
  | none => .noResource
  | some r => .registry (Deserializers.get r)

/-- `world.register_stat::<T>()` for some stat types, one after the other -/
def Resources.registerStats : List E.S → Resources E Q Ent G → Res (Resources E Q Ent G)
  | [], w => .ok w
  | T :: Ts, w => do
    let w' ← w.registerStat A T
    registerStats Ts w'

omit [DecidableEq Q] [Ord Q] [Std.TransOrd Q] [Std.LawfulEqOrd Q] [DecidableEq Ent] in
theorem Resources.registerStats_spec (Ts : List E.S) (w w' : Resources E Q Ent G)
    (h : w.registerStats A Ts = .ok w') :
    (∀ n s, Deserializers.get (w.deserializers.getD []) n = some s →
      Deserializers.get (w'.deserializers.getD []) n = some s) ∧
    (∀ T ∈ Ts, ∀ x ∈ E.values T, Deserializers.get (w'.deserializers.getD []) (E.statName x) =
      some (E.asEntry x)) ∧ (Ts ≠ [] → w'.deserializers.isSome) := by
  induction Ts generalizing w with
  | nil =>
    simp only [registerStats, Except.ok.injEq] at h
    subst h
    simp
  | cons T Ts ih =>
    simp only [registerStats, Resources.registerStat, Res.bind_eq_ok, Except.ok.injEq] at h
    obtain ⟨w1, ⟨r, hr, rfl⟩, h2⟩ := h
    obtain ⟨i1, i2, i3⟩ := ih _ h2
    simp only [Option.getD_some] at i1
    obtain ⟨c1, c2, _⟩ := C41_register_finds A T _ r hr
    refine ⟨fun n s hn => i1 n s (c2 n s hn), ?_, fun _ => ?_⟩
    · intro U hU x hx
      rcases List.mem_cons.1 hU with rfl | hU
      · exact i1 _ _ (c1 x hx)
      · exact i2 U hU x hx
    · cases Ts with
      | nil => simp only [registerStats, Except.ok.injEq] at h2; subst h2; rfl
      | cons _ _ => exact i3 (by simp)

/-- the stat is a listed value of its type, and the type's index conversions identify it -/
def Listed (s : StatInst E) : Prop :=
  ∃ x ∈ E.values s.vt, E.asIndex x = s.index ∧ E.fromIndex s.vt s.index = .ok x

/-- **C66** In a world where `register_stat` has returned for the types of all stored stats, among any other
registrations, a reachable map of listed stats is loaded exactly as it was saved. -/
theorem C66_save_load (X : Serde E Q) (h : List (MapOp E Q)) (m : StatMap E Q)
    (hm : StatMap.run A h = .ok m) (Ts : List E.S) (w w' : Resources E Q Ent G)
    (hw : w.registerStats A Ts = .ok w')
    (hreg : ∀ e ∈ m, e.stat.vt ∈ Ts ∧ Listed e.stat)
    (hq : ∀ e ∈ m, X.deQ (X.serQ e.qual) = some e.qual)
    (hv : ∀ e ∈ m, ∀ x : e.stat.Val, e.buf = .val e.stat.ty x → X.de e.stat.ty (X.ser e.stat.ty x) = some x)
    (hsup : ∀ e ∈ m, X.supported e.stat.vt = true) (hne : m ≠ []) :
    ∃ d, X.serMap m = .ok d ∧ X.deMap w'.scope d = .ok (some m) := by
  obtain ⟨_, h2, h3⟩ := Resources.registerStats_spec A Ts w w' hw
  have hTs : Ts ≠ [] := by
    rintro rfl
    cases m with
    | nil => exact hne rfl
    | cons e _ => exact absurd (hreg e (by simp)).1 (by simp)
  obtain ⟨r, hr⟩ := Option.isSome_iff_exists.1 (h3 hTs)
  rw [hr] at h2
  simp only [Option.getD_some] at h2
  have : w'.scope = .registry (Deserializers.get r) := by simp [Resources.scope, hr]
  rw [this]
  refine C13_roundtrip_of_stored A X h m hm _ hq hv hsup (fun e he => ?_)
  obtain ⟨hT, x, hx, hi, hf⟩ := hreg e he
  refine ⟨E.statName x, by simp [StatInst.name, hf], ?_⟩
  rw [h2 _ hT x hx, Env.asEntry, hi]

/-- a map with nothing in it needs no registration -/
theorem C66_empty (X : Serde E Q) (sc : DeScope E) :
    ∃ d, X.serMap ([] : StatMap E Q) = .ok d ∧ X.deMap sc d = .ok (some []) :=
  ⟨serStruct X.fmt ["inner"] [.seq []], by simp [Serde.serMap, Serde.serEntries],
    by simp [Serde.deMap, deStruct_serStruct, Serde.deEntries]⟩

/-- **C66** Conversely a saved map is never loaded in a world where the name of one of its stats is not
registered. -/
theorem C66_unregistered (X : Serde E Q) (m m' : StatMap E Q) (d : Data) (hd : X.serMap m = .ok d)
    (reg : Registry E) (e : Entry E Q (Buf E)) (he : e ∈ m) (n : String) (hn : e.stat.name = .ok n)
    (hr : reg n = none) : X.deMap (.registry reg) d ≠ .ok (some m') := by
  obtain ⟨ds, h1, h2⟩ := Res.bind_eq_ok.1 hd
  cases h2
  rw [Serde.deMap, deStruct_serStruct X.fmt ["inner"] (by decide) [.seq ds] rfl]
  clear hd
  simp only
  induction m generalizing ds m' with
  | nil => cases he
  | cons e' l ih =>
    simp only [Serde.serEntries, Res.bind_eq_ok, Except.ok.injEq] at h1
    obtain ⟨d0, hd0, ds', hds', rfl⟩ := h1
    intro hc
    simp only [Serde.deEntries, Res.bind_eq_ok] at hc
    obtain ⟨eo, ho, hc⟩ := hc
    cases eo with
    | none => simp at hc
    | some e0 =>
      simp only [Res.bind_eq_ok] at hc
      obtain ⟨eso, hs, hc⟩ := hc
      rcases List.mem_cons.1 he with rfl | he
      · simp only [Serde.serEntry, hn, Res.bind_ok, Res.bind_eq_ok, Except.ok.injEq] at hd0
        obtain ⟨v, _, rfl⟩ := hd0
        rw [(C14_rejects X (.registry reg) reg (X.serQ e.qual) v n [v]).2.2.2.1 hr] at ho
        cases ho
      · cases eso with
        | none => simp at hc
        | some es => exact ih es he ds' hds' hs

/-- the crate's own impls for `StatInt<i32>`, `StatFlags<u8>` and the qualifier -/
def shippedSerde (f : Format) : Serde demo (BitVec 8) where
  serQ := (Codec.qualifier f (Codec.bits 8)).ser
  deQ := (Codec.qualifier f (Codec.bits 8)).de
  ser u := match u with
    | true => (Codec.statInt f .i32).ser
    | false => (Codec.statFlags f (Codec.bits 8)).ser
  de u := match u with
    | true => (Codec.statInt f .i32).de
    | false => (Codec.statFlags f (Codec.bits 8)).de
  supported _ := true
  fmt := f

/-- C66: a world and a map over two stat types meeting the hypotheses, in any format -/
example (f : Format) : ∃ m w', StatMap.run demoAddr (Q := BitVec 8)
      [.insert ⟨0, 0⟩ (demoFlag 1) ⟨0, 5⟩, .insert ⟨1, 0⟩ (demoInt 0) ⟨6, 0, 9, 1⟩] = .ok m ∧ m.length = 2 ∧
    (⟨none, none, none, none⟩ : Resources demo (BitVec 8) Nat Unit).registerStats demoAddr [false, true] =
      .ok w' ∧
    ∃ d, (shippedSerde f).serMap m = .ok d ∧ (shippedSerde f).deMap w'.scope d = .ok (some m) := by
  refine ⟨_, _, rfl, rfl, rfl, C66_save_load demoAddr (shippedSerde f)
    [.insert ⟨0, 0⟩ (demoFlag 1) ⟨0, 5⟩, .insert ⟨1, 0⟩ (demoInt 0) ⟨6, 0, 9, 1⟩] _ rfl [false, true]
    (⟨none, none, none, none⟩ : Resources demo (BitVec 8) Nat Unit) _ rfl
    ?_ ?_ ?_ (fun _ _ => rfl) (fun h => absurd (congrArg List.length h) (by decide))⟩
  · rintro e (_ | ⟨_, _ | ⟨_, h⟩⟩)
    · exact ⟨by simp, (0 : Nat), by decide, rfl, rfl⟩
    · exact ⟨by simp, (1 : Nat), by decide, rfl, rfl⟩
    · cases h
  · intro e _
    exact (Codec.C65_qualifier f (Codec.C65_bits 8)).roundtrip _ ⟨trivial, trivial⟩
  · rintro e (_ | ⟨_, _ | ⟨_, h⟩⟩) x hx
    · cases hx
      exact (Codec.C65_statInt f .i32).roundtrip _ (by decide)
    · cases hx
      exact (Codec.C65_statFlags f (Codec.C65_bits 8)).roundtrip _ ⟨trivial, trivial⟩
    · cases h

end BSQ
