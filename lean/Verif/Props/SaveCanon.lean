import Verif.Props.Repair
import Verif.Props.Postcard
/-!
# C133: what saved data depends on
-/
namespace BSQ
variable {E : Env} {Q : Type} [DecidableEq Q] [Ord Q] [Std.TransOrd Q] [Std.LawfulEqOrd Q] {A A' : Addr E}

/-- a map of one process, put in the order of another, is the map of these contents there -/
theorem Rep.resorted {m : StatMap E Q} {a : PMap E Q} (r : Rep A m a) : Rep A' (Vec.sorted A' m) a := by
  have hp : (Vec.sorted A' m).Perm m := List.mergeSort_perm _ _
  have hs : Vec.Sorted A' (Vec.sorted A' m) := Vec.sorted_mergeSort A' r.sorted.nodup
  refine ⟨hs, fun k => ?_, r.storable⟩
  rw [← r.holds k, Vec.lookup_filter, Vec.filter_stat_eq hs r.sorted hp, ← Vec.lookup_filter]

/-- maps of two processes with equal contents hold the same entries -/
theorem same_entries {h h' : List (MapOp E Q)} {m m' : StatMap E Q} (hm : StatMap.run A h = .ok m)
    (hm' : StatMap.run A' h' = .ok m') (heq : ∀ q s, StatMap.get A m q s = StatMap.get A' m' q s) :
    m.Perm m' ∧ (m = m' ↔ SameOrder A A' m) := by
  obtain ⟨a, -, r⟩ := reachRep A hm
  obtain ⟨a', -, r'⟩ := reachRep A' hm'
  have ha : a' = a := by
    funext k
    have := heq k.qual k.stat
    rw [r.get, r'.get] at this
    exact (Except.ok.inj this).symm
  subst ha
  have hm : m' = Vec.sorted A' m := r'.ext r.resorted
  refine ⟨hm ▸ (List.mergeSort_perm _ _).symm, fun h => ?_, fun h => (r.other h).ext r'⟩
  exact SameOrder.of_sorted r.sorted (h ▸ r'.sorted)

omit [DecidableEq Q] [Ord Q] [Std.TransOrd Q] [Std.LawfulEqOrd Q] in
theorem Serde.serEntries_perm (X : Serde E Q) {m m' : StatMap E Q} (hp : m.Perm m') :
    ∀ ds, X.serEntries m = .ok ds → ∃ ds', X.serEntries m' = .ok ds' ∧ ds.Perm ds' := by
  induction hp with
  | nil => exact fun ds h => ⟨ds, h, .refl _⟩
  | cons e _ ih =>
    intro ds h
    obtain ⟨d, h1, h⟩ := Res.bind_eq_ok.1 h
    obtain ⟨l, h2, h⟩ := Res.bind_eq_ok.1 h
    cases h
    obtain ⟨l', h3, h4⟩ := ih l h2
    exact ⟨d :: l', by simp [Serde.serEntries, h1, h3], h4.cons d⟩
  | swap e e' l =>
    intro ds h
    obtain ⟨d, h1, h⟩ := Res.bind_eq_ok.1 h
    obtain ⟨_, h2, h⟩ := Res.bind_eq_ok.1 h
    cases h
    obtain ⟨d', h3, h⟩ := Res.bind_eq_ok.1 h2
    obtain ⟨l', h4, h⟩ := Res.bind_eq_ok.1 h
    cases h
    exact ⟨d' :: d :: l', by simp [Serde.serEntries, h1, h3, h4], List.Perm.swap _ _ _⟩
  | trans _ _ ih₁ ih₂ =>
    intro ds h
    obtain ⟨ds', h1, h2⟩ := ih₁ ds h
    obtain ⟨ds'', h3, h4⟩ := ih₂ ds' h1
    exact ⟨ds'', h3, h2.trans h4⟩

/-- **C133** In one process two maps are saved as the same data if and only if they have the same contents, however they
were built. -/
theorem C133_contents (X : Serde E Q) (hX : X.Lawful) (h h' : List (MapOp E Q)) (m m' : StatMap E Q)
    (hm : StatMap.run A h = .ok m) (hm' : StatMap.run A h' = .ok m') (reg : Registry E)
    (hsup : ∀ e ∈ m ++ m', X.supported e.stat.vt = true)
    (hreg : ∀ e ∈ m ++ m', ∃ n, e.stat.name = .ok n ∧ reg n = some e.stat) :
    X.serMap m = X.serMap m' ↔ ∀ q s, StatMap.get A m q s = StatMap.get A m' q s := by
  refine ⟨fun hd => ?_, fun heq => by rw [C09_determined_by_values A h h' m m' hm hm' heq]⟩
  obtain ⟨d, h1, h2⟩ := C13_roundtrip A X hX h m hm reg (fun e he => hsup e (by simp [he]))
    (fun e he => hreg e (by simp [he]))
  obtain ⟨d', h1', h2'⟩ := C13_roundtrip A X hX h' m' hm' reg (fun e he => hsup e (by simp [he]))
    (fun e he => hreg e (by simp [he]))
  cases (h1.symm.trans hd).trans h1'
  cases h2.symm.trans h2'
  exact fun _ _ => rfl

/-- **C133** Two processes save maps of the same contents as the same entries; and as the same data, if and only if they
have the vtables of the stored stats in the same order. -/
theorem C133_processes (X : Serde E Q) (hX : X.Lawful) (h h' : List (MapOp E Q)) (m m' : StatMap E Q)
    (hm : StatMap.run A h = .ok m) (hm' : StatMap.run A' h' = .ok m') (reg : Registry E)
    (hsup : ∀ e ∈ m, X.supported e.stat.vt = true)
    (hreg : ∀ e ∈ m, ∃ n, e.stat.name = .ok n ∧ reg n = some e.stat)
    (heq : ∀ q s, StatMap.get A m q s = StatMap.get A' m' q s) :
    (∃ ds ds', X.serMap m = .ok (serStruct X.fmt ["inner"] [.seq ds]) ∧
      X.serMap m' = .ok (serStruct X.fmt ["inner"] [.seq ds']) ∧ ds.Perm ds') ∧
    (X.serMap m = X.serMap m' ↔ SameOrder A A' m) := by
  obtain ⟨hp, hiff⟩ := same_entries hm hm' heq
  obtain ⟨d, h1, h2⟩ := C13_roundtrip A X hX h m hm reg hsup hreg
  obtain ⟨d', h1', h2'⟩ := C13_roundtrip A' X hX h' m' hm' reg (fun e he => hsup e (hp.mem_iff.2 he))
    (fun e he => hreg e (hp.mem_iff.2 he))
  constructor
  · obtain ⟨ds, h3, h4⟩ := Res.bind_eq_ok.1 h1
    obtain ⟨ds', h5, h6⟩ := X.serEntries_perm hp ds h3
    exact ⟨ds, ds', by simp [Serde.serMap, h3], by simp [Serde.serMap, h5], h6⟩
  · rw [← hiff]
    refine ⟨fun hd => ?_, fun h => by rw [h]⟩
    cases (h1.symm.trans hd).trans h1'
    cases h2.symm.trans h2'
    rfl

/-- **C133** Whether a map can be saved at all is the same in both processes. -/
theorem C133_savable (X : Serde E Q) (h h' : List (MapOp E Q)) (m m' : StatMap E Q)
    (hm : StatMap.run A h = .ok m) (hm' : StatMap.run A' h' = .ok m')
    (heq : ∀ q s, StatMap.get A m q s = StatMap.get A' m' q s) :
    (∃ d, X.serMap m = .ok d) ↔ ∃ d, X.serMap m' = .ok d := by
  obtain ⟨hp, -⟩ := same_entries hm hm' heq
  rw [C13_serialises_iff A X h m hm, C13_serialises_iff A' X h' m' hm']
  exact forall_congr' fun e => by rw [hp.mem_iff]

namespace Postcard
variable {X : Serde E Q} {W : Shapes E}

omit [DecidableEq Q] [Ord Q] [Std.TransOrd Q] [Std.LawfulEqOrd Q] in
theorem writeEntries_perm {m m' : StatMap E Q} (hp : m.Perm m') :
    ∀ b, writeEntries X W m = .ok (some b) → ∃ b', writeEntries X W m' = .ok (some b') ∧ b'.length = b.length := by
  have step : ∀ (e : Entry E Q (Buf E)) (l : StatMap E Q) b, writeEntries X W (e :: l) = .ok (some b) ↔
      ∃ c c', writeEntry X W e = .ok (some c) ∧ writeEntries X W l = .ok (some c') ∧ b = c ++ c' := by
    intro e l b
    simp only [writeEntries]
    constructor
    · intro h
      obtain ⟨o, h1, h⟩ := Res.bind_eq_ok.1 h
      obtain ⟨o', h2, h⟩ := Res.bind_eq_ok.1 h
      cases o <;> cases o' <;> simp_all
    · rintro ⟨c, c', h1, h2, rfl⟩
      simp [h1, h2]
  induction hp with
  | nil => exact fun b h => ⟨b, h, rfl⟩
  | cons e _ ih =>
    intro b h
    obtain ⟨c, c', h1, h2, rfl⟩ := (step _ _ _).1 h
    obtain ⟨b', h3, h4⟩ := ih _ h2
    exact ⟨c ++ b', (step _ _ _).2 ⟨c, b', h1, h3, rfl⟩, by simp [h4]⟩
  | swap e e' l =>
    intro b h
    obtain ⟨c, c', h1, h2, rfl⟩ := (step _ _ _).1 h
    obtain ⟨d, d', h3, h4, rfl⟩ := (step _ _ _).1 h2
    exact ⟨d ++ (c ++ d'), (step _ _ _).2 ⟨d, _, h3, (step _ _ _).2 ⟨c, d', h1, h4, rfl⟩, rfl⟩, by simp; omega⟩
  | trans _ _ ih₁ ih₂ =>
    intro b h
    obtain ⟨b', h1, h2⟩ := ih₁ b h
    obtain ⟨b'', h3, h4⟩ := ih₂ b' h1
    exact ⟨b'', h3, h4.trans h2⟩

/-- **C133** The same for the bytes of `postcard`: equal contents take the same number of bytes, and are the same bytes
if and only if both processes have the vtables of the stored stats in the same order. -/
theorem C133_bytes (hW : W.Lawful) (h h' : List (MapOp E Q)) (m m' : StatMap E Q)
    (hm : StatMap.run A h = .ok m) (hm' : StatMap.run A' h' = .ok m') (reg : Registry E)
    (hs : ∀ e ∈ m, Saves X W reg e) (hl : m.length < 2 ^ 64)
    (heq : ∀ q s, StatMap.get A m q s = StatMap.get A' m' q s) :
    ∃ b b', writeMap X W m = .ok (some b) ∧ writeMap X W m' = .ok (some b') ∧ b.length = b'.length ∧
      (b = b' ↔ SameOrder A A' m) := by
  obtain ⟨hp, hiff⟩ := same_entries hm hm' heq
  have hs' : ∀ e ∈ m', Saves X W reg e := fun e he => hs e (hp.mem_iff.2 he)
  obtain ⟨b, h1, -⟩ := C132_saved hW hs hl
  obtain ⟨b', h1', -⟩ := C132_saved hW hs' (hp.length_eq ▸ hl)
  refine ⟨b, b', h1, h1', ?_, ?_⟩
  · obtain ⟨o, h3, h4⟩ := Res.bind_eq_ok.1 h1
    cases o with
    | none => cases h4
    | some c =>
      simp only [Option.map_some, Except.ok.injEq, Option.some.injEq] at h4
      obtain ⟨c', h5, h6⟩ := writeEntries_perm hp c h3
      have : writeMap X W m' = .ok (some (putNat 64 m'.length ++ c')) := by simp [writeMap, h5]
      cases h1'.symm.trans this
      rw [← h4, List.length_append, List.length_append, h6, hp.length_eq]
  · rw [← hiff]
    constructor
    · intro hb
      exact (C132_distinct hW hs hs' hl (hp.length_eq ▸ hl) h1 h1' (r := []) (r' := []) (by rw [hb])).1
    · rintro rfl
      cases h1.symm.trans h1'
      rfl
end Postcard

/-! ### concrete cases -/

/-- **C133** The same calls in two processes, and what they save. -/
theorem C133_differ :
    let h : List (MapOp demo (BitVec 8)) :=
      [.insert ⟨0, 0⟩ (demoFlag 1) ⟨0, 5⟩, .insert ⟨0, 0⟩ (demoInt 0) ⟨6, 0, 9, 1⟩]
    ∃ m m', StatMap.run demoAddr h = .ok m ∧ StatMap.run demoAddr' h = .ok m' ∧
      (∀ q s, StatMap.get demoAddr m q s = StatMap.get demoAddr' m' q s) ∧
      Postcard.writeMap Postcard.demoPostcard Postcard.demoShapes m = .ok (some
        [2, 3, 0, 0, 4, 105, 110, 116, 48, 12, 0, 18, 2, 3, 0, 0, 5, 102, 108, 97, 103, 49, 0, 5]) ∧
      Postcard.writeMap Postcard.demoPostcard Postcard.demoShapes m' = .ok (some
        [2, 3, 0, 0, 5, 102, 108, 97, 103, 49, 0, 5, 3, 0, 0, 4, 105, 110, 116, 48, 12, 0, 18, 2]) := by
  intro h
  obtain ⟨m, hm⟩ : ∃ m, StatMap.run demoAddr h = .ok m := ⟨_, rfl⟩
  obtain ⟨m', hm'⟩ : ∃ m, StatMap.run demoAddr' h = .ok m := ⟨_, rfl⟩
  refine ⟨m, m', hm, hm', fun q s => ?_, ?_, ?_⟩
  · obtain ⟨a, ha, r⟩ := reachRep demoAddr hm
    obtain ⟨a', ha', r'⟩ := reachRep demoAddr' hm'
    cases ha.symm.trans ha'
    rw [r.get, r'.get]
  · cases hm; decide +kernel
  · cases hm'; decide +kernel

/-- C133: the hypotheses are met by the maps of `C133_differ`, of which the orders do not agree -/
example : ∃ (m m' : StatMap demo (BitVec 8)) (b b' : List UInt8),
    Postcard.writeMap Postcard.demoPostcard Postcard.demoShapes m = .ok (some b) ∧
    Postcard.writeMap Postcard.demoPostcard Postcard.demoShapes m' = .ok (some b') ∧ b.length = b'.length ∧
    (b = b' ↔ SameOrder demoAddr demoAddr' m) ∧ ¬ SameOrder demoAddr demoAddr' m ∧
    (demoSerde.serMap m = demoSerde.serMap m' ↔ SameOrder demoAddr demoAddr' m) := by
  obtain ⟨m, m', hm, hm', heq, h1, h2⟩ := C133_differ
  have hs : ∀ e ∈ m, Postcard.Saves Postcard.demoPostcard Postcard.demoShapes Postcard.demoNames e := by
    cases hm
    rintro e (_ | ⟨_, _ | ⟨_, h⟩⟩)
    · exact ⟨⟨(⟨6, 0, 9, 1⟩ : StatInt), rfl, by decide, rfl, _, rfl⟩, ⟨rfl, _, rfl⟩, rfl, "int0", rfl, rfl, by decide⟩
    · exact ⟨⟨(⟨0, 5⟩ : StatFlags (BitVec 8)), rfl, by decide, rfl, _, rfl⟩, ⟨rfl, _, rfl⟩, rfl, "flag1", rfl, rfl,
        by decide⟩
    · cases h
  obtain ⟨b, b', g1, g2, g3, g4⟩ := Postcard.C133_bytes Postcard.demoShapes_lawful _ _ m m' hm hm' Postcard.demoNames hs
    (by cases hm; decide) heq
  refine ⟨m, m', b, b', g1, g2, g3, g4, ?_, ?_⟩
  · rw [← g4]
    cases g1.symm.trans h1
    cases g2.symm.trans h2
    decide
  · refine (C133_processes demoSerde demoSerde_lawful _ _ m m' hm hm' Postcard.demoNames ?_ ?_ heq).2
    · exact fun _ _ => rfl
    · intro e he
      obtain ⟨n, h1, h2, -⟩ := (hs e he).name
      exact ⟨n, h1, h2⟩

/-- C133: maps built in different orders, and with a value that was replaced -/
example : ∃ m m' : StatMap demo (BitVec 8),
    StatMap.run demoAddr [.insert ⟨0, 0⟩ (demoFlag 1) ⟨0, 5⟩, .insert ⟨0, 0⟩ (demoInt 0) ⟨6, 0, 9, 1⟩] = .ok m ∧
    StatMap.run demoAddr [.insert ⟨0, 0⟩ (demoInt 0) ⟨7, 0, 9, 1⟩, .insert ⟨0, 0⟩ (demoFlag 1) ⟨0, 5⟩,
      .insert ⟨0, 0⟩ (demoInt 0) ⟨6, 0, 9, 1⟩] = .ok m' ∧
    (demoSerde.serMap m = demoSerde.serMap m' ↔ ∀ q s, StatMap.get demoAddr m q s = StatMap.get demoAddr m' q s) := by
  have hn : ∀ e ∈ ([⟨demoInt 0, ⟨0, 0⟩, .val true (⟨6, 0, 9, 1⟩ : StatInt)⟩,
      ⟨demoFlag 1, ⟨0, 0⟩, .val false (⟨0, 5⟩ : StatFlags (BitVec 8))⟩] : StatMap demo (BitVec 8)),
      ∃ n, e.stat.name = .ok n ∧ Postcard.demoNames n = some e.stat := by
    rintro e (_ | ⟨_, _ | ⟨_, h⟩⟩)
    · exact ⟨"int0", rfl, rfl⟩
    · exact ⟨"flag1", rfl, rfl⟩
    · cases h
  refine ⟨_, _, rfl, rfl, C133_contents demoSerde demoSerde_lawful
    [.insert ⟨0, 0⟩ (demoFlag 1) ⟨0, 5⟩, .insert ⟨0, 0⟩ (demoInt 0) ⟨6, 0, 9, 1⟩]
    [.insert ⟨0, 0⟩ (demoInt 0) ⟨7, 0, 9, 1⟩, .insert ⟨0, 0⟩ (demoFlag 1) ⟨0, 5⟩,
      .insert ⟨0, 0⟩ (demoInt 0) ⟨6, 0, 9, 1⟩] _ _ rfl rfl Postcard.demoNames (fun _ _ => rfl) fun e he => ?_⟩
  rcases List.mem_append.1 he with he | he
  · exact hn e he
  · exact hn e he

end BSQ
