import Verif.Spec.SaveWorld
import Verif.Props.MapLocal
import Verif.Props.SaveLoad
/-!
# C91: a saved world answers queries as before when loaded
-/
namespace BSQ
set_option linter.unusedSectionVars false
variable {E : Env} {Q Ent Ent' G : Type} [BitFlags Q] [FlagSet Q] [Ord Q] [Std.TransOrd Q] [Std.LawfulEqOrd Q]
  [DecidableEq Ent'] {A A' : Addr E}

/-- a history leaves the same map in a process that orders the vtables of what is stored in the end alike -/
theorem run_other {h : List (MapOp E Q)} {m : StatMap E Q} (hm : StatMap.run A h = .ok m)
    (hord : SameOrder A A' m) : StatMap.run A' h = .ok m := by
  obtain ⟨a, ha, r⟩ := reachRep A hm
  have key := Rep.run (A := A') h
  rw [ha] at key
  cases hm' : StatMap.run A' h with
  | error e => rw [hm'] at key; exact key.elim
  | ok m' =>
    rw [hm'] at key
    have key : Rep A' m' a := key
    rw [key.ext (r.other hord)]

/-- maps that calls have left -/
noncomputable def MapComp.ofReached (f : Ent → Option (StatMap E Q))
    (hf : ∀ e m, f e = some m → ∃ h, StatMap.run A h = .ok m) : MapComp (Q := Q) A Ent where
  map := f
  stored e := by
    classical exact if h : ∃ a : PMap E Q, ∃ m, f e = some m ∧ Rep A m a then h.choose else PMap.empty
  reached e m hm := by
    obtain ⟨h, h1⟩ := hf e m hm
    obtain ⟨a, h2, r⟩ := reachRep A h1
    have hx : ∃ a : PMap E Q, ∃ m, f e = some m ∧ Rep A m a := ⟨a, m, hm, r⟩
    refine ⟨h, h1, ?_⟩
    rw [dif_pos hx]
    obtain ⟨m', h3, r'⟩ := hx.choose_spec
    cases hm.symm.trans h3
    rw [h2, r.unique r']

/-- **C91**, partial: a world whose sources are `StatMap`s is saved in one process and loaded in another, in which
`register_stat` has returned for the types of the stored stats; entities may have new names.  If the vtables of the
stats that are stored together have the same order in both processes, then each query gives the same result as
before.  Missing: other orders of the vtables (`C91_refuted`). -/
theorem C91_reloaded_partial (X : Serde E Q) (hX : X.Lawful) (Ts : List E.S) (w w' : Resources E Q Ent' G)
    (hw : w.registerStats A' Ts = .ok w') (ren : Ent → Ent') {J : Joined E Q Ent} {J' : Joined E Q Ent'}
    {own items : List (MapComp (Q := Q) A Ent)} {own' items' : List (Ent' → Option (StatMap E Q))}
    (h : OnlyMaps J own items) (hcomp : J'.comp.leaves = own'.map (mapStream A'))
    (hchild : J'.child.leaves = items'.map (mapStream A')) (hrel : J'.rel.leaves = [])
    (hglob : J'.world.relations.getD [] = [])
    (hown : List.Forall₂ (fun c f => LoadedFrom A' X w'.scope ren c.map f) own own')
    (hitems : List.Forall₂ (fun c f => LoadedFrom A' X w'.scope ren c.map f) items items')
    (hstored : ∀ c ∈ own ++ items, ∀ e m, c.map e = some m →
      SameOrder A A' m ∧ ∀ x ∈ m, x.stat.vt ∈ Ts ∧ Listed x.stat)
    (e : Ent) (he : J.world.isStat e = true) (he' : J'.world.isStat (ren e) = true)
    (hkids : (J'.world.children (ren e)).getD [] = ((J.world.children e).getD []).map ren)
    (q : QualifierQuery Q) (s : StatInst E) (hs : Storable (E.layout s.ty)) (v : s.Val)
    (hv : J.world.startValue A s = .ok (.val s.ty v)) (hv' : J'.world.startValue A' s = .ok (.val s.ty v))
    (n n' : Nat) : J'.answer A' (n' + 1) (.stat (ren e) q s) = J.answer A (n + 1) (.stat e q s) := by
  have same : ∀ c ∈ own ++ items, ∀ f, LoadedFrom A' X w'.scope ren c.map f → ∀ e, f (ren e) = c.map e := by
    intro c hc f hl e
    cases hm : c.map e with
    | none => exact hl.absent e hm
    | some m =>
      obtain ⟨d, m', h1, h2, h3⟩ := hl.present e m hm
      obtain ⟨hord, hst⟩ := hstored c hc e m hm
      obtain ⟨ops, hops, -⟩ := c.reached e m hm
      have hops' := run_other hops hord
      have hsup := fun x hx => (((C13_serialises_iff A X ops m hops).1 ⟨d, h1⟩) x hx).1
      by_cases hne : m = []
      · subst hne
        obtain ⟨d', g1, g2⟩ := C66_empty X w'.scope
        cases h1.symm.trans g1
        cases h2.symm.trans g2
        exact h3
      · obtain ⟨d', g1, g2⟩ := C66_save_load A' X ops m hops' Ts w w' hw hst (fun x _ => hX.qual x.qual)
          (fun _ _ x _ => hX.val _ x) hsup hne
        cases h1.symm.trans g1
        cases h2.symm.trans g2
        exact h3
  have lift : ∀ {cs : List (MapComp (Q := Q) A Ent)} {fs : List (Ent' → Option (StatMap E Q))},
      List.Forall₂ (fun c f => LoadedFrom A' X w'.scope ren c.map f) cs fs → (∀ c ∈ cs, c ∈ own ++ items) →
      ∃ cs' : List (MapComp (Q := Q) A' Ent'), fs = cs'.map MapComp.map ∧
        List.Forall₂ (fun c c' => ∀ e q s, SameAt q s (c, e) (c', ren e)) cs cs' := by
    intro cs fs hl
    induction hl with
    | nil => exact fun _ => ⟨[], rfl, .nil⟩
    | @cons c f cs fs hcf _ ih =>
      intro hmem
      obtain ⟨cs', h1, h2⟩ := ih fun c hc => hmem c (by simp [hc])
      have hs := same c (hmem c (by simp)) f hcf
      have hf : ∀ e' m, f e' = some m → ∃ h, StatMap.run A' h = .ok m := by
        intro e' m hm
        rcases hcf.others e' m hm with ⟨e, rfl⟩ | h
        · rw [hs e] at hm
          obtain ⟨ops, hops, -⟩ := c.reached e m hm
          exact ⟨ops, run_other hops (hstored c (hmem c (by simp)) e m hm).1⟩
        · exact h
      refine ⟨MapComp.ofReached f hf :: cs', by simp [h1, MapComp.ofReached], .cons ?_ h2⟩
      intro e q s k _
      have hm : (MapComp.ofReached f hf).map (ren e) = c.map e := hs e
      unfold foundAt
      simp only [hm]
      cases hc : c.map e with
      | none => rfl
      | some m =>
        have r := (c.rep hc).other (hstored c (hmem c (by simp)) e m hc).1
        rw [r.unique ((MapComp.ofReached f hf).rep (hm.trans hc))]
  obtain ⟨co, rfl, ho⟩ := lift hown fun c hc => by simp [hc]
  obtain ⟨ci, rfl, hi⟩ := lift hitems fun c hc => by simp [hc]
  have h' : OnlyMaps J' co ci := by
    refine ⟨?_, ?_, hrel, hglob⟩
    · rw [hcomp, List.map_map]; rfl
    · rw [hchild, List.map_map]; rfl
  refine (C89_depends h h' e (ren e) q s hs he he' v hv hv' ?_ n n').symm
  unfold mapPlaces
  rw [hkids]
  refine List.rel_append ?_ ?_
  · rw [List.forall₂_map_left_iff, List.forall₂_map_right_iff]
    exact ho.imp fun _ _ hc => hc e q s
  · clear hchild h' h hitems hstored same lift hown
    induction hi with
    | nil => exact .nil
    | cons hc _ ih =>
      rw [List.flatMap_cons, List.flatMap_cons]
      refine List.rel_append ?_ ih
      rw [List.map_map, List.forall₂_map_left_iff, List.forall₂_map_right_iff, List.forall₂_same]
      exact fun e _ => hc e q s

/-! ### concrete cases -/

/-- entity 0 of the saving process and entity 10 of the loading one -/
def demoSavedWorld (k : Nat) : World demo (BitVec 8) Nat where
  isStat e := e == k
  children e := if e == k then some [k + 1] else none
  defaults := none
  relations := none
  cached := false
  placeholder := 99

/-- a component with the map that calls leave, on the first entity and its child -/
def demoSaved (h : List (MapOp demo (BitVec 8))) : MapComp (Q := BitVec 8) demoAddr Nat :=
  .ofOps fun e => if e ≤ 1 then some h else none

/-- the same maps, on entities 10 and 11 -/
def demoReloaded (m : StatMap demo (BitVec 8)) (e : Nat) : Option (StatMap demo (BitVec 8)) :=
  if 10 ≤ e ∧ e ≤ 11 then some m else none

def demoSaveJ (h : List (MapOp demo (BitVec 8))) : Joined demo (BitVec 8) Nat :=
  ((demoSavedWorld 0).withComponent (demoSaved h).stream).withChildren (demoSaved h).stream

def demoLoadJ (m : StatMap demo (BitVec 8)) : Joined demo (BitVec 8) Nat :=
  ((demoSavedWorld 10).withComponent (mapStream demoAddr' (demoReloaded m))).withChildren
    (mapStream demoAddr' (demoReloaded m))

/-- the vtables change order, but the maps hold two stats of one type -/
def demoSavedOps : List (MapOp demo (BitVec 8)) :=
  [.insert ⟨0, 0⟩ (demoInt 1) ⟨7, 0, 9, 1⟩, .insert ⟨0, 0⟩ (demoInt 0) ⟨6, 0, 90, 2⟩]

/-- C91: the hypotheses are met, and the query is `(0 + 6 + 6) * (1 * 2 * 2)` in both processes -/
example (n n' : Nat) : ∃ m w', StatMap.run demoAddr demoSavedOps = .ok m ∧
    (⟨none, none, none, none⟩ : Resources demo (BitVec 8) Nat Unit).registerStats demoAddr' [true] = .ok w' ∧
    LoadedFrom demoAddr' demoSerde w'.scope (· + 10) (demoSaved demoSavedOps).map (demoReloaded m) ∧
    (demoLoadJ m).answer demoAddr' (n' + 1) (.stat 10 demoQ (demoInt 0)) =
      (demoSaveJ demoSavedOps).answer demoAddr (n + 1) (.stat 0 demoQ (demoInt 0)) := by
  obtain ⟨m, hm⟩ : ∃ m, StatMap.run demoAddr demoSavedOps = .ok m := ⟨_, rfl⟩
  have hw : ∃ w', (⟨none, none, none, none⟩ : Resources demo (BitVec 8) Nat Unit).registerStats demoAddr' [true] =
    .ok w' := ⟨_, rfl⟩
  obtain ⟨w', hw⟩ := hw
  have hmap : ∀ e m', (demoSaved demoSavedOps).map e = some m' → e ≤ 1 ∧ m' = m := by
    intro e m' h
    by_cases he : e ≤ 1
    · refine ⟨he, ?_⟩
      simp only [demoSaved, MapComp.ofOps, he, if_true, Option.bind_some, hm] at h
      exact (Option.some.inj h).symm
    · simp [demoSaved, MapComp.ofOps, he] at h
  have hst : SameOrder demoAddr demoAddr' m ∧ ∀ x ∈ m, x.stat.vt ∈ [true] ∧ Listed x.stat := by
    have hall : ∀ x ∈ m, x.stat.vt = true ∧ Listed x.stat := by
      cases hm
      rintro e (_ | ⟨_, _ | ⟨_, h⟩⟩)
      · exact ⟨rfl, (0 : Nat), by decide, rfl, rfl⟩
      · exact ⟨rfl, (1 : Nat), by decide, rfl, rfl⟩
      · cases h
    exact ⟨SameOrder.of_one_type _ _ true m fun e he => (hall e he).1,
      fun x hx => ⟨by simp [(hall x hx).1], (hall x hx).2⟩⟩
  have hl : LoadedFrom demoAddr' demoSerde w'.scope (· + 10) (demoSaved demoSavedOps).map (demoReloaded m) := by
    refine ⟨fun e he => ?_, fun e m' he => ?_, fun e' m' he => ?_⟩
    · have : ¬ e ≤ 1 := fun h => by simp [demoSaved, MapComp.ofOps, h, hm, Except.toOption] at he
      unfold demoReloaded
      rw [if_neg (by omega)]
    · obtain ⟨h1, rfl⟩ := hmap e m' he
      obtain ⟨d, h2, h3⟩ := C66_save_load demoAddr' demoSerde demoSavedOps m' (run_other hm hst.1) [true] _ w' hw hst.2
        (fun x _ => demoSerde_lawful.qual x.qual) (fun _ _ x _ => demoSerde_lawful.val _ x) (fun _ _ => rfl)
        (by rintro rfl; cases hm)
      exact ⟨d, m', h2, h3, by unfold demoReloaded; rw [if_pos (by omega)]⟩
    · unfold demoReloaded at he
      split at he
      · exact .inl ⟨e' - 10, by show e' = e' - 10 + 10; omega⟩
      · cases he
  refine ⟨m, w', hm, hw, hl, ?_⟩
  exact C91_reloaded_partial (J := demoSaveJ demoSavedOps) (J' := demoLoadJ m) demoSerde demoSerde_lawful [true] _ w' hw
    (· + 10) (own := [demoSaved demoSavedOps]) (items := [demoSaved demoSavedOps]) (own' := [demoReloaded m])
    (items' := [demoReloaded m]) ⟨rfl, rfl, rfl, rfl⟩ rfl rfl rfl rfl (.cons hl .nil) (.cons hl .nil)
    (fun c hc e m' he => by
      have : c = demoSaved demoSavedOps := by simpa using hc
      subst this
      rw [(hmap e m' he).2]; exact hst)
    0 rfl rfl rfl demoQ (demoInt 0) (by decide) (⟨0, -2147483648, 2147483647, 1⟩ : StatInt) rfl rfl n n'

example : ((demoSaveJ demoSavedOps).answer demoAddr 1 (.stat 0 demoQ (demoInt 0)) : Res (Option StatInt)) =
    .ok (some ⟨12, 0, 90, 4⟩) := rfl

/-- C91 does not hold without the condition on the vtables: with stats of two types in a map, a query of the loaded
world misses a value, and another one reads a value at the wrong type. -/
theorem C91_refuted :
    let h : List (MapOp demo (BitVec 8)) :=
      [.insert ⟨0, 0⟩ (demoFlag 1) ⟨0, 5⟩, .insert ⟨0, 0⟩ (demoInt 0) ⟨6, 0, 9, 1⟩]
    ∃ m w' d, StatMap.run demoAddr h = .ok m ∧
      (⟨none, none, none, none⟩ : Resources demo (BitVec 8) Nat Unit).registerStats demoAddr' [false, true] = .ok w' ∧
      demoSerde.serMap m = .ok d ∧ demoSerde.deMap w'.scope d = .ok (some m) ∧
      (demoSaveJ h).answer demoAddr 1 (.stat 0 demoQ (demoInt 0)) =
        (.ok (some ⟨12, 0, 9, 1⟩) : Res (Option StatInt)) ∧
      (demoLoadJ m).answer demoAddr' 1 (.stat 10 demoQ (demoInt 0)) ≠
        (.ok (some ⟨12, 0, 9, 1⟩) : Res (Option StatInt)) ∧
      (demoSaveJ h).answer demoAddr 1 (.stat 0 demoQ (demoFlag 1)) =
        (.ok (some ⟨0, 5⟩) : Res (Option (StatFlags (BitVec 8)))) ∧
      (demoLoadJ m).answer demoAddr' 1 (.stat 10 demoQ (demoFlag 1)) = .error .ub := by
  refine ⟨_, _, _, rfl, rfl, rfl, rfl, rfl, ?_, rfl, rfl⟩
  intro h
  cases h

end BSQ
