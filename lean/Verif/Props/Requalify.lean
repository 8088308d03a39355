import Verif.Spec.Requalify
import Verif.Props.Interchange
import Verif.Props.Arrange
/-!
# C128 in worlds: modifiers kept under interchangeable qualifiers, in any maps
-/
set_option linter.unusedSectionVars false
namespace BSQ
open FlagSpec
variable {E : Env} {Q Ent : Type} [BitFlags Q] [FlagSet Q] [Ord Q] [Std.TransOrd Q] [Std.LawfulEqOrd Q]
  {A : Addr E} {J J' : Joined E Q Ent} {own items own' items' : List (MapComp (Q := Q) A Ent)} {e e' : Ent}
  {s : StatInst E}

open Classical in
theorem HoldsAt.matching {pl : MapComp (Q := Q) A Ent × Ent} {L : List (Qualifier Q × s.Val)}
    (h : HoldsAt s pl L) (q : QualifierQuery Q) : MatchesAt q s pl (L.filter fun x => decide (Matches x.1 q)) where
  once := h.once.sublist (List.filter_sublist.map _)
  mem k v := by
    rw [List.mem_filter, h.mem, decide_eq_true_iff, and_assoc]

open Classical in
theorem holds_matching {l : List (MapComp (Q := Q) A Ent × Ent)} {Ls : List (List (Qualifier Q × s.Val))}
    (h : List.Forall₂ (HoldsAt s) l Ls) (q : QualifierQuery Q) :
    List.Forall₂ (MatchesAt q s) l (Ls.map (List.filter fun x => decide (Matches x.1 q))) := by
  induction h with
  | nil => exact .nil
  | cons h1 _ ih => exact .cons (h1.matching q) ih

theorem paired_filter {α β : Type} {R : α → α → Prop} {P P' : List (α × β)} (p : α → Bool)
    (hR : ∀ a b, R a b → p a = p b) (h : List.Forall₂ (fun a b => R a.1 b.1 ∧ a.2 = b.2) P P') :
    (P.filter fun x => p x.1).map (·.2) = (P'.filter fun x => p x.1).map (·.2) := by
  induction h with
  | nil => rfl
  | cons h1 _ ih =>
    rw [List.filter_cons, List.filter_cons, hR _ _ h1.1]
    split
    · rw [List.map_cons, List.map_cons, h1.2, ih]
    · exact ih

/-- the values that match a query, in both programs -/
theorem PairedOff.values {R : Qualifier Q → Qualifier Q → Prop}
    (h : PairedOff R J own items e J' own' items' e' s) (q : QualifierQuery Q)
    (hR : ∀ k k', R k k' → (Matches k q ↔ Matches k' q)) :
    ∃ Ls Ls' : List (List (Qualifier Q × s.Val)),
      List.Forall₂ (MatchesAt q s) (mapPlaces J own items e) Ls ∧
      List.Forall₂ (MatchesAt q s) (mapPlaces J' own' items' e') Ls' ∧
      (Ls.flatten.map (·.2)).Perm (Ls'.flatten.map (·.2)) := by
  classical
  obtain ⟨Ls, Ls', P, h1, h2, h3, h4⟩ := h
  refine ⟨_, _, holds_matching h1 q, holds_matching h2 q, ?_⟩
  rw [← List.filter_flatten, ← List.filter_flatten]
  refine ((h3.filter _).map _).trans (.of_eq ?_)
  exact paired_filter (fun k => decide (Matches k q)) (fun a b hab => decide_eq_decide.2 (hR a b hab)) h4

/-- **C128** in worlds: where all sources are maps, and those for an entity can be paired off with those of another, or
of the same after a change, under interchangeable qualifiers, aggregate queries join the same values, in some order. -/
theorem C128_world (hS : Singles Q) (h : OnlyMaps J own items) (h' : OnlyMaps J' own' items')
    (hp : PairedOff Interchangeable J own items e J' own' items' e' s) (hs : Storable (E.layout s.ty))
    (he : J.world.isStat e = true) (he' : J'.world.isStat e' = true) (v : s.Val)
    (hv : J.world.startValue A s = .ok (.val s.ty v)) (hv' : J'.world.startValue A s = .ok (.val s.ty v)) (x : Q) :
    ∃ l l' : List s.Val, l.Perm l' ∧
      (∀ n, J.answer A (n + 1) (.stat e (.aggregate x) s) = (joinList s.sv v l >>= fun x => .ok (some x))) ∧
      ∀ n, J'.answer A (n + 1) (.stat e' (.aggregate x) s) = (joinList s.sv v l' >>= fun x => .ok (some x)) := by
  obtain ⟨Ms, Ms', m1, m2, m3⟩ := hp.values (.aggregate x) (fun k k' hk => by
    rw [← matches_iff, ← matches_iff, (C128_same hS k k').2 hk x])
  obtain ⟨Ls, h1, -, h2⟩ := C86_exact h e _ s hs he v hv
  obtain ⟨Ls', h1', -, h2'⟩ := C86_exact h' e' _ s hs he' v hv'
  exact ⟨_, _, (((listed_perm h1 m1).map _).trans m3).trans ((listed_perm m2 h1').map _), h2, h2'⟩

/-- **C128** in worlds, for every shipped type: where the operations the values were assembled from fit together, both
answer, and what they answer evaluates to the same value, as far as the type determines it (`C119_determined`). -/
theorem C128_world_same (hS : Singles Q) (h : OnlyMaps J own items) (h' : OnlyMaps J' own' items')
    (hp : PairedOff Interchangeable J own items e J' own' items' e' s) (hs : Storable (E.layout s.ty))
    (he : J.world.isStat e = true) (he' : J'.world.isStat e' = true)
    (hv : J'.world.startValue A s = J.world.startValue A s) {V : Type} {D : StatValue V} {hD : s.Is D}
    {okOp : StatOp D → Prop} {Fits : List (StatOp D) → Prop} {Value : List (StatOp D) → D.Out → Prop}
    (hC : ClosedForm D okOp Fits Value) {L : List (StatOp D)} {x : Q}
    (hL : AssembledFrom J own items e (.aggregate x) s hD L)
    (hok : ∀ o ∈ L, okOp o) (hf : Fits L) :
    ∃ (w w' : s.Val) (out out' : s.sv.Out),
      (∀ n, J.answer A (n + 1) (.stat e (.aggregate x) s) = .ok (some w)) ∧ s.sv.eval w = .ok out ∧
      (∀ n, J'.answer A (n + 1) (.stat e' (.aggregate x) s) = .ok (some w')) ∧ s.sv.eval w' = .ok out' ∧
      Value L (asOut hD out) ∧ Value L (asOut hD out') := by
  obtain ⟨Ms, Ms', m1, m2, m3⟩ := hp.values (.aggregate x) (fun k k' hk => by
    rw [← matches_iff, ← matches_iff, (C128_same hS k k').2 hk x])
  obtain ⟨L', p, hL'⟩ : ∃ L', L'.Perm L ∧ AssembledFrom J' own' items' e' (.aggregate x) s hD L' := by
    obtain ⟨v, Ls, t₀, ts, h1, h2, h3, h4, h5, rfl⟩ := hL
    have h5' : List.Forall₂ (fun (x : s.Val) t => Tree.NoReset t ∧ t.run = .ok (asVal hD x)) (Ls.flatten.map (·.2)) ts := by
      rw [List.forall₂_map_left_iff]; exact h5
    obtain ⟨ts', h6, h7⟩ := forall₂_perm (((listed_perm h2 m1).map _).trans m3) h5'
    rw [List.forall₂_map_left_iff] at h6
    exact ⟨_, (h7.symm.flatMap_right _).append_left _, v, Ms', t₀, ts', hv.trans h1, m2, h3, h4, h6, rfl⟩
  have key : ∀ t : Tree D, t.NoReset → t.leaves.Perm L → ∃ v out, t.run = .ok v ∧ D.eval v = .ok out ∧ Value L out := by
    intro t h1 h2
    obtain ⟨v, out, h3, h4, h5⟩ := hC.eval t h1 (fun o ho => hok o (h2.mem_iff.1 ho))
      (hC.hereditary L _ h2.subperm hf)
    exact ⟨v, out, h3, h4, hC.perm _ _ _ h2 h5⟩
  obtain ⟨w, out, a1, a2, a3⟩ := hL.closed h hs he (P := Value L) key
  obtain ⟨w', out', b1, b2, b3⟩ := hL'.closed h' hs he' (P := Value L) fun t h1 h2 => key t h1 (h2.trans p)
  exact ⟨w, w', out, out', a1, a2, b1, b2, a3, b3⟩

theorem paired_sublist {α β : Type} {R : α → α → Prop} {P P' : List (α × β)} (p : α → Bool)
    (hR : ∀ a b, R a b → p a = true → p b = true) (h : List.Forall₂ (fun a b => R a.1 b.1 ∧ a.2 = b.2) P P') :
    ((P.filter fun x => p x.1).map (·.2)).Sublist ((P'.filter fun x => p x.1).map (·.2)) := by
  induction h with
  | nil => exact .slnil
  | @cons a b _ _ h1 _ ih =>
    rw [List.filter_cons, List.filter_cons]
    by_cases ha : p a.1 = true
    · rw [if_pos ha, if_pos (hR _ _ h1.1 ha), List.map_cons, List.map_cons, h1.2]
      exact ih.cons_cons _
    · rw [if_neg ha]
      split
      · exact ih.cons _
      · exact ih

/-- **C128** in worlds: under qualifiers that are at least as general, an aggregate query joins all the values that it
joined before, and maybe more. -/
theorem C128_world_general (hS : Singles Q) (h : OnlyMaps J own items) (h' : OnlyMaps J' own' items')
    (hp : PairedOff AsGeneral J own items e J' own' items' e' s) (hs : Storable (E.layout s.ty))
    (he : J.world.isStat e = true) (he' : J'.world.isStat e' = true) (v : s.Val)
    (hv : J.world.startValue A s = .ok (.val s.ty v)) (hv' : J'.world.startValue A s = .ok (.val s.ty v)) (x : Q) :
    ∃ l more l' : List s.Val, (l ++ more).Perm l' ∧
      (∀ n, J.answer A (n + 1) (.stat e (.aggregate x) s) = (joinList s.sv v l >>= fun x => .ok (some x))) ∧
      ∀ n, J'.answer A (n + 1) (.stat e' (.aggregate x) s) = (joinList s.sv v l' >>= fun x => .ok (some x)) := by
  classical
  obtain ⟨Ms, Ms', P, m1, m2, m3, m4⟩ := hp
  obtain ⟨Ls, h1, -, h2⟩ := C86_exact h e (.aggregate x) s hs he v hv
  obtain ⟨Ls', h1', -, h2'⟩ := C86_exact h' e' (.aggregate x) s hs he' v hv'
  have k1 := (listed_perm h1 (holds_matching m1 (.aggregate x))).map (·.2)
  have k2 := (listed_perm h1' (holds_matching m2 (.aggregate x))).map (·.2)
  rw [← List.filter_flatten] at k1 k2
  have k3 := paired_sublist (fun k => decide (Matches k (.aggregate x))) (fun a b hab ha => by
    rw [decide_eq_true_iff, ← matches_iff] at ha ⊢
    exact (C128_general hS a b).2 hab x ha) m4
  have k4 : (Ls.flatten.map (·.2)).Subperm (Ls'.flatten.map (·.2)) :=
    ((k1.trans ((m3.filter _).map _)).subperm_right.2 (.refl _)).trans (k3.subperm.trans k2.symm.subperm)
  obtain ⟨more, hmore⟩ := List.Sublist.exists_perm_append k4.choose_spec.2
  exact ⟨_, more, _, (k4.choose_spec.1.symm.append_right _).trans hmore.symm, h2, h2'⟩

/-! ### a concrete case -/

/-- entity 0 has a modifier under a qualifier -/
def demoKept (k : Qualifier (BitVec 8)) (e : Nat) : Option (List (MapOp demo (BitVec 8))) :=
  if e = 0 then some [.insert k (demoInt 0) ⟨5, -100, 100, 2⟩] else none

theorem demoKept_holds (k : Qualifier (BitVec 8)) :
    HoldsAt (demoInt 0) (MapComp.ofOps (A := demoAddr) (demoKept k), 0) [(k, (⟨5, -100, 100, 2⟩ : StatInt))] := by
  refine ⟨by simp, fun k' v => ?_⟩
  have h1 : ((MapComp.ofOps (A := demoAddr) (demoKept k)).map 0).isSome := rfl
  have h2 : (MapComp.ofOps (A := demoAddr) (demoKept k)).stored 0 =
      PMap.empty.set ⟨demoInt 0, k⟩ (⟨5, -100, 100, 2⟩ : StatInt) := rfl
  rw [List.mem_singleton, h2]
  by_cases hk : k' = k
  · subst hk
    rw [PMap.set, dif_pos rfl]
    exact ⟨fun h => by cases h; exact ⟨h1, rfl⟩, fun h => by cases h.2; rfl⟩
  · rw [PMap.set, dif_neg (fun h => hk (congrArg Key.qual h))]
    exact ⟨fun h => by cases h; exact absurd rfl hk, fun h => by cases h.2⟩

theorem demoKept_paired {R : Qualifier (BitVec 8) → Qualifier (BitVec 8) → Prop} {k k' : Qualifier (BitVec 8)}
    (h : R k k') : PairedOff R
    (demoLayout (demoKept k) fun _ => none) ([demoKept k].map (MapComp.ofOps (A := demoAddr)))
      ([fun _ => none].map MapComp.ofOps) 0
    (demoLayout (demoKept k') fun _ => none) ([demoKept k'].map MapComp.ofOps)
      ([fun _ => none].map MapComp.ofOps) 0 (demoInt 0) := by
  have hn : ∀ e, HoldsAt (demoInt 0) (MapComp.ofOps (Q := BitVec 8) (A := demoAddr) (fun _ : Nat => none), e) [] :=
    fun e => ⟨.nil, fun k v => ⟨fun h => (List.not_mem_nil h).elim, fun h => by cases h.1⟩⟩
  exact ⟨[[(k, (⟨5, -100, 100, 2⟩ : StatInt))], [], []], [[(k', (⟨5, -100, 100, 2⟩ : StatInt))], [], []], _,
    .cons (demoKept_holds _) (.cons (hn _) (.cons (hn _) .nil)),
    .cons (demoKept_holds _) (.cons (hn _) (.cons (hn _) .nil)), .refl _, .cons ⟨h, rfl⟩ .nil⟩

/-- fire in `any_of` in the one world, and in `all_of` in the other: the hypothesis of `C128_world` holds -/
example := demoKept_paired (R := Interchangeable) (k := ⟨1, 0⟩) (k' := ⟨0, 1⟩) (by
  rw [← C128_same (singles_bits 8)]
  decide)

/-- fire and ice in the one world, and fire in the other: the hypothesis of `C128_world_general` holds -/
example := demoKept_paired (R := AsGeneral) (k := ⟨0, 3⟩) (k' := ⟨0, 1⟩) (by
  rw [← C128_general (singles_bits 8)]
  decide)

/-- so aggregate queries answer alike -/
example : ((demoLayout (demoKept ⟨1, 0⟩) fun _ => none).answer demoAddr 1 (.stat 0 (.aggregate 1) (demoInt 0)) :
      Res (Option StatInt)) = .ok (some ⟨5, -100, 100, 2⟩) ∧
    ((demoLayout (demoKept ⟨0, 1⟩) fun _ => none).answer demoAddr 1 (.stat 0 (.aggregate 1) (demoInt 0)) :
      Res (Option StatInt)) = .ok (some ⟨5, -100, 100, 2⟩) ∧
    OnlyMaps (demoLayout (demoKept ⟨1, 0⟩) fun _ => none) ([demoKept ⟨1, 0⟩].map (MapComp.ofOps (A := demoAddr)))
      ([fun _ => none].map MapComp.ofOps) := ⟨rfl, rfl, rfl, rfl, rfl, rfl⟩

/-- and exact ones do not -/
example : ((demoLayout (demoKept ⟨1, 0⟩) fun _ => none).answer demoAddr 1 (.stat 0 (.exact 1 0) (demoInt 0)) :
      Res (Option StatInt)) = .ok (some ⟨5, -100, 100, 2⟩) ∧
    ((demoLayout (demoKept ⟨0, 1⟩) fun _ => none).answer demoAddr 1 (.stat 0 (.exact 1 0) (demoInt 0)) :
      Res (Option StatInt)) = .ok (some ⟨0, -2147483648, 2147483647, 1⟩) := ⟨rfl, rfl⟩

end BSQ
