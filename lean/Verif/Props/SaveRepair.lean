import Verif.Spec.SaveRepair
import Verif.Props.SaveWorld
import Verif.Props.Repair
/-!
# C91 in any process: maps that are extended by nothing after loading
-/
namespace BSQ
set_option linter.unusedSectionVars false
variable {E : Env} {Q Ent Ent' G : Type} [BitFlags Q] [FlagSet Q] [Ord Q] [Std.TransOrd Q] [Std.LawfulEqOrd Q]
  [DecidableEq Ent'] {A A' : Addr E}

/-- a history leaves the map of another process sorted anew -/
theorem run_sorted {h : List (MapOp E Q)} {m : StatMap E Q} (hm : StatMap.run A h = .ok m) :
    StatMap.run A' h = .ok (Vec.sorted A' m) := by
  obtain ⟨a, ha, r⟩ := reachRep A hm
  have hp : (Vec.sorted A' m).Perm m := List.mergeSort_perm _ _
  have hs : Vec.Sorted A' (Vec.sorted A' m) := Vec.sorted_mergeSort A' r.sorted.nodup
  have hf : ∀ s, (Vec.sorted A' m).filter (fun e => decide (e.stat = s)) = m.filter (fun e => decide (e.stat = s)) :=
    Vec.filter_stat_eq hs r.sorted hp
  have r' : Rep A' (Vec.sorted A' m) a := by
    refine ⟨hs, fun k => ?_, r.storable⟩
    rw [← r.holds k, Vec.lookup_filter, hf, ← Vec.lookup_filter]
  have key := Rep.run (A := A') h
  rw [ha] at key
  cases hm' : StatMap.run A' h with
  | error e => rw [hm'] at key; exact key.elim
  | ok m' =>
    rw [hm'] at key
    have key : Rep A' m' a := key
    rw [key.ext r']

/-- what is loaded from a saved map in a world that knows its stats, and then extended by nothing -/
theorem repaired_eq (X : Serde E Q) (hX : X.Lawful) (Ts : List E.S) (w w' : Resources E Q Ent' G)
    (hw : w.registerStats A' Ts = .ok w') {h : List (MapOp E Q)} {m m₁ m₂ : StatMap E Q} {d : Data}
    (hm : StatMap.run A h = .ok m) (hst : ∀ x ∈ m, x.stat.vt ∈ Ts ∧ Listed x.stat)
    (h1 : X.serMap m = .ok d) (h2 : X.deMap w'.scope d = .ok (some m₁)) (T : E.S)
    (h3 : StatMap.extend A' m₁ T [] = .ok m₂) : StatMap.run A' h = .ok m₂ := by
  have hm₁ : m₁ = m := by
    by_cases hne : m = []
    · subst hne
      obtain ⟨d', g1, g2⟩ := C66_empty X w'.scope
      cases h1.symm.trans g1
      cases h2.symm.trans g2
      rfl
    · have hsup := fun x hx => (((C13_serialises_iff A X h m hm).1 ⟨d, h1⟩) x hx).1
      obtain ⟨-, k2, k3⟩ := Resources.registerStats_spec A' Ts w w' hw
      have hTs : Ts ≠ [] := by
        rintro rfl
        cases m with
        | nil => exact hne rfl
        | cons e _ => exact absurd (hst e (by simp)).1 (by simp)
      obtain ⟨r, hr⟩ := Option.isSome_iff_exists.1 (k3 hTs)
      rw [hr] at k2
      simp only [Option.getD_some] at k2
      have hsc : w'.scope = .registry (Deserializers.get r) := by simp [Resources.scope, hr]
      rw [hsc] at h2
      obtain ⟨d', g1, g2⟩ := C13_roundtrip A X hX h m hm (Deserializers.get r) hsup fun e he => by
        obtain ⟨hT, x, hx, hi, hf⟩ := hst e he
        refine ⟨E.statName x, by simp [StatInst.name, hf], ?_⟩
        rw [k2 _ hT x hx, Env.asEntry, hi]
      cases h1.symm.trans g1
      cases h2.symm.trans g2
      rfl
  subst hm₁
  have : StatMap.extend A' m₁ T [] = .ok (Vec.sorted A' m₁) := by
    unfold StatMap.extend StatMap.entries
    simp
  cases h3.symm.trans this
  exact run_sorted hm

/-- **C91** in whatever order the loading process has the vtables: if each loaded map is extended by nothing before it
is asked, then each query gives the same result as before. -/
theorem C91_repaired (X : Serde E Q) (hX : X.Lawful) (Ts : List E.S) (w w' : Resources E Q Ent' G)
    (hw : w.registerStats A' Ts = .ok w') (T : E.S) (ren : Ent → Ent') {J : Joined E Q Ent} {J' : Joined E Q Ent'}
    {own items : List (MapComp (Q := Q) A Ent)} {own' items' : List (Ent' → Option (StatMap E Q))}
    (h : OnlyMaps J own items) (hcomp : J'.comp.leaves = own'.map (mapStream A'))
    (hchild : J'.child.leaves = items'.map (mapStream A')) (hrel : J'.rel.leaves = [])
    (hglob : J'.world.relations.getD [] = [])
    (hown : List.Forall₂ (fun c f => RepairedFrom A' X w'.scope T ren c.map f) own own')
    (hitems : List.Forall₂ (fun c f => RepairedFrom A' X w'.scope T ren c.map f) items items')
    (hstored : ∀ c ∈ own ++ items, ∀ e m, c.map e = some m → ∀ x ∈ m, x.stat.vt ∈ Ts ∧ Listed x.stat)
    (e : Ent) (he : J.world.isStat e = true) (he' : J'.world.isStat (ren e) = true)
    (hkids : (J'.world.children (ren e)).getD [] = ((J.world.children e).getD []).map ren)
    (q : QualifierQuery Q) (s : StatInst E) (hs : Storable (E.layout s.ty)) (v : s.Val)
    (hv : J.world.startValue A s = .ok (.val s.ty v)) (hv' : J'.world.startValue A' s = .ok (.val s.ty v))
    (n n' : Nat) : J'.answer A' (n' + 1) (.stat (ren e) q s) = J.answer A (n + 1) (.stat e q s) := by
  have same : ∀ c ∈ own ++ items, ∀ f, RepairedFrom A' X w'.scope T ren c.map f → ∀ e m, c.map e = some m →
      ∃ m' h, f (ren e) = some m' ∧ StatMap.run A h = .ok m ∧ StatMap.run A' h = .ok m' := by
    intro c hc f hl e m hm
    obtain ⟨d, m₁, m₂, h1, h2, h3, h4⟩ := hl.present e m hm
    obtain ⟨ops, hops, -⟩ := c.reached e m hm
    exact ⟨m₂, ops, h4, hops, repaired_eq X hX Ts w w' hw hops (hstored c hc e m hm) h1 h2 T h3⟩
  have lift : ∀ {cs : List (MapComp (Q := Q) A Ent)} {fs : List (Ent' → Option (StatMap E Q))},
      List.Forall₂ (fun c f => RepairedFrom A' X w'.scope T ren c.map f) cs fs → (∀ c ∈ cs, c ∈ own ++ items) →
      ∃ cs' : List (MapComp (Q := Q) A' Ent'), fs = cs'.map MapComp.map ∧
        List.Forall₂ (fun c c' => ∀ e q s, SameAt q s (c, e) (c', ren e)) cs cs' := by
    intro cs fs hl
    induction hl with
    | nil => exact fun _ => ⟨[], rfl, .nil⟩
    | @cons c f cs fs hcf _ ih =>
      intro hmem
      obtain ⟨cs', h1, h2⟩ := ih fun c hc => hmem c (by simp [hc])
      have hs := same c (hmem c (by simp)) f hcf
      have hf : ∀ e' m, f e' = some m → ∃ h, StatMap.run A' h = .ok m := by
        intro e' m hm
        rcases hcf.others e' m hm with ⟨e, rfl⟩ | h
        · cases hc : c.map e with
          | none => rw [hcf.absent e hc] at hm; cases hm
          | some m₀ =>
            obtain ⟨m', ops, g1, -, g3⟩ := hs e m₀ hc
            cases g1.symm.trans hm
            exact ⟨ops, g3⟩
        · exact h
      refine ⟨MapComp.ofReached f hf :: cs', by simp [h1, MapComp.ofReached], .cons ?_ h2⟩
      intro e q s k _
      unfold foundAt
      cases hc : c.map e with
      | none =>
        have hm : (MapComp.ofReached f hf).map (ren e) = none := hcf.absent e hc
        simp [hm]
      | some m =>
        obtain ⟨m', ops, g1, g2, g3⟩ := hs e m hc
        have hm : (MapComp.ofReached f hf).map (ren e) = some m' := g1
        simp only [hm]
        obtain ⟨a, ha, r⟩ := reachRep A g2
        obtain ⟨a', ha', r'⟩ := reachRep A' g3
        cases ha.symm.trans ha'
        rw [(c.rep hc).unique r, ((MapComp.ofReached f hf).rep hm).unique r']
        rfl
  obtain ⟨co, rfl, ho⟩ := lift hown fun c hc => by simp [hc]
  obtain ⟨ci, rfl, hi⟩ := lift hitems fun c hc => by simp [hc]
  have h' : OnlyMaps J' co ci := by
    refine ⟨?_, ?_, hrel, hglob⟩
    · rw [hcomp, List.map_map]; rfl
    · rw [hchild, List.map_map]; rfl
  refine (C89_depends h h' e (ren e) q s hs he he' v hv hv' ?_ n n').symm
  unfold mapPlaces
  rw [hkids]
  refine List.rel_append ?_ ?_
  · rw [List.forall₂_map_left_iff, List.forall₂_map_right_iff]
    exact ho.imp fun _ _ hc => hc e q s
  · clear hchild h' h hitems hstored same lift hown
    induction hi with
    | nil => exact .nil
    | cons hc _ ih =>
      rw [List.flatMap_cons, List.flatMap_cons]
      refine List.rel_append ?_ ih
      rw [List.map_map, List.forall₂_map_left_iff, List.forall₂_map_right_iff, List.forall₂_same]
      exact fun e _ => hc e q s

/-- the calls of `C91_refuted`, whose two stat types the loading process has in the other order -/
def demoMixedOps : List (MapOp demo (BitVec 8)) :=
  [.insert ⟨0, 0⟩ (demoFlag 1) ⟨0, 5⟩, .insert ⟨0, 0⟩ (demoInt 0) ⟨6, 0, 9, 1⟩]

/-- C91_repaired: the hypotheses are met in the case of `C91_refuted`, with the loaded map repaired -/
example (n n' : Nat) : ∃ m m₂ w', StatMap.run demoAddr demoMixedOps = .ok m ∧
    StatMap.extend demoAddr' m true [] = .ok m₂ ∧
    (demoLoadJ m).answer demoAddr' 1 (.stat 10 demoQ (demoInt 0)) ≠ (.ok (some ⟨12, 0, 9, 1⟩) : Res (Option StatInt)) ∧
    (⟨none, none, none, none⟩ : Resources demo (BitVec 8) Nat Unit).registerStats demoAddr' [false, true] = .ok w' ∧
    RepairedFrom demoAddr' demoSerde w'.scope true (· + 10) (demoSaved demoMixedOps).map (demoReloaded m₂) ∧
    (demoLoadJ m₂).answer demoAddr' (n' + 1) (.stat 10 demoQ (demoInt 0)) =
      (demoSaveJ demoMixedOps).answer demoAddr (n + 1) (.stat 0 demoQ (demoInt 0)) := by
  obtain ⟨m, hm⟩ : ∃ m, StatMap.run demoAddr demoMixedOps = .ok m := ⟨_, rfl⟩
  obtain ⟨w', hw⟩ : ∃ w', (⟨none, none, none, none⟩ : Resources demo (BitVec 8) Nat Unit).registerStats demoAddr'
    [false, true] = .ok w' := ⟨_, rfl⟩
  obtain ⟨m₂, h₂⟩ : ∃ m₂, StatMap.extend demoAddr' m true [] = .ok m₂ := by cases hm; exact ⟨_, rfl⟩
  have hmap : ∀ e m', (demoSaved demoMixedOps).map e = some m' → e ≤ 1 ∧ m' = m := by
    intro e m' h
    by_cases he : e ≤ 1
    · refine ⟨he, ?_⟩
      simp only [demoSaved, MapComp.ofOps, he, if_true, Option.bind_some, hm] at h
      exact (Option.some.inj h).symm
    · simp [demoSaved, MapComp.ofOps, he] at h
  have hst : ∀ x ∈ m, x.stat.vt ∈ [false, true] ∧ Listed x.stat := by
    cases hm
    rintro e (_ | ⟨_, _ | ⟨_, h⟩⟩)
    · exact ⟨by decide, (0 : Nat), by decide, rfl, rfl⟩
    · exact ⟨by decide, (1 : Nat), by decide, rfl, rfl⟩
    · cases h
  have hl : RepairedFrom demoAddr' demoSerde w'.scope true (· + 10) (demoSaved demoMixedOps).map
      (demoReloaded m₂) := by
    refine ⟨fun e he => ?_, fun e m' he => ?_, fun e' m' he => ?_⟩
    · have : ¬ e ≤ 1 := fun h => by simp [demoSaved, MapComp.ofOps, h, hm, Except.toOption] at he
      unfold demoReloaded
      rw [if_neg (by omega)]
    · obtain ⟨h1, rfl⟩ := hmap e m' he
      have hser : ∃ d, demoSerde.serMap m' = .ok d ∧ demoSerde.deMap w'.scope d = .ok (some m') := by
        cases hm; cases hw; exact ⟨_, rfl, rfl⟩
      obtain ⟨d, h3, h4⟩ := hser
      exact ⟨d, m', m₂, h3, h4, h₂, by unfold demoReloaded; rw [if_pos (by omega)]⟩
    · unfold demoReloaded at he
      split at he
      · exact .inl ⟨e' - 10, by show e' = e' - 10 + 10; omega⟩
      · cases he
  refine ⟨m, m₂, w', hm, h₂, ?_, hw, hl, ?_⟩
  · cases hm
    intro h
    cases h
  exact C91_repaired (J := demoSaveJ demoMixedOps) (J' := demoLoadJ m₂) demoSerde demoSerde_lawful [false, true] _ w' hw
    true (· + 10) (own := [demoSaved demoMixedOps]) (items := [demoSaved demoMixedOps]) (own' := [demoReloaded m₂])
    (items' := [demoReloaded m₂]) ⟨rfl, rfl, rfl, rfl⟩ rfl rfl rfl rfl (.cons hl .nil) (.cons hl .nil)
    (fun c hc e m' he => by
      have : c = demoSaved demoMixedOps := by simpa using hc
      subst this
      rw [(hmap e m' he).2]; exact hst)
    0 rfl rfl rfl demoQ (demoInt 0) (by decide) (⟨0, -2147483648, 2147483647, 1⟩ : StatInt) rfl rfl n n'

end BSQ
