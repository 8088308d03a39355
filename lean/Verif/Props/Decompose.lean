import Verif.Spec.Decompose
import Verif.Props.Assembled
import Verif.Props.ClosedForm
import Verif.Props.Arrange
import Mathlib.Data.List.Perm.Basic
import Mathlib.Data.Fintype.EquivFin
/-!
# C120: queries made up of other queries
-/
set_option linter.unusedSectionVars false
namespace BSQ
variable {E : Env} {Q Ent : Type} [BitFlags Q] [FlagSet Q] [Ord Q] [Std.TransOrd Q] [Std.LawfulEqOrd Q]
  {A : Addr E} {J : Joined E Q Ent} {own items : List (MapComp (Q := Q) A Ent)} {e : Ent}
  {q : QualifierQuery Q} {s : StatInst E}

/-- C120: for modifiers without alternatives, and for those whose alternatives the query meets, an aggregate query is
made up of the exact queries for all sets of flags within it. -/
theorem C120_exacts (places : List (MapComp (Q := Q) A Ent × Ent)) (s : StatInst E) (x : Q) (ys : List Q)
    (hy : Subsets x ys)
    (hk : ∀ p ∈ places, ∀ k v, p.1.stored p.2 ⟨s, k⟩ = some v → FlagSpec.Within k.allOf x →
      FlagSpec.NoFlags k.anyOf ∨ FlagSpec.Meets k.anyOf x) :
    DividesInto places s (.aggregate x) (ys.map (.exact BitFlags.dflt ·)) := by
  intro p hp k v hv
  constructor
  · simp only [List.mem_map, exists_exists_and_eq_and]
    constructor
    · rintro ⟨h1, -⟩
      exact ⟨k.allOf, (hy.mem _).2 h1, fun _ => Iff.rfl, fun f hf => absurd hf (FlagSet.has_default f)⟩
    · rintro ⟨y, h1, h2, -⟩
      have : k.allOf = y := FlagSet.ext h2
      have hw : FlagSpec.Within k.allOf x := by rw [this]; exact (hy.mem y).1 h1
      exact ⟨hw, hk p hp k v hv hw⟩
  · rw [List.pairwise_map]
    refine hy.once.imp fun hne => ?_
    rintro ⟨h1, h2⟩
    have h1 := FlagSet.ext h1.1
    have h2 := FlagSet.ext h2.1
    exact hne (h1.symm.trans h2)

/-- C120: and only for those.  A modifier with alternatives that the query does not meet is found by one of the exact
queries, but not by the aggregate one. -/
theorem C120_alternatives (x : Q) (ys : List Q) (hy : Subsets x ys) (k : Qualifier Q)
    (hw : FlagSpec.Within k.allOf x) (ha : ¬ FlagSpec.NoFlags k.anyOf) (hm : ¬ FlagSpec.Meets k.anyOf x) :
    ¬ FlagSpec.Matches k (.aggregate x) ∧
      ∃ r ∈ ys.map fun y => QualifierQuery.exact BitFlags.dflt y, FlagSpec.Matches k r :=
  ⟨fun h => h.2.elim ha hm, _, List.mem_map.2 ⟨k.allOf, (hy.mem _).2 hw, rfl⟩, fun _ => Iff.rfl,
    fun f hf => absurd hf (FlagSet.has_default f)⟩

private theorem matches_div {x : MapComp (Q := Q) A Ent × Ent} {qs : List (QualifierQuery Q)}
    (hd : ∀ k v, x.1.stored x.2 ⟨s, k⟩ = some v → (FlagSpec.Matches k q ↔ ∃ r ∈ qs, FlagSpec.Matches k r) ∧
      qs.Pairwise fun r r' => ¬ (FlagSpec.Matches k r ∧ FlagSpec.Matches k r'))
    {L : List (Qualifier Q × s.Val)} (hL : MatchesAt q s x L)
    {f : QualifierQuery Q → List (Qualifier Q × s.Val)} (hf : ∀ r ∈ qs, MatchesAt r s x (f r)) :
    L.Perm (qs.flatMap f) := by
  refine (List.perm_ext_iff_of_nodup (List.Nodup.of_map _ hL.once) (List.nodup_flatMap.2 ⟨fun r hr =>
    List.Nodup.of_map _ (hf r hr).once, ?_⟩)).2 ?_
  · rw [List.pairwise_iff_getElem]
    intro i j hi hj hij
    rintro ⟨k, v⟩ h1 h2
    obtain ⟨a1, a2, a3⟩ := ((hf _ (List.getElem_mem hi)).mem k v).1 h1
    obtain ⟨b1, b2, b3⟩ := ((hf _ (List.getElem_mem hj)).mem k v).1 h2
    exact List.pairwise_iff_getElem.1 (hd k v a2).2 i j hi hj hij ⟨a3, b3⟩
  · rintro ⟨k, v⟩
    rw [hL.mem, List.mem_flatMap]
    constructor
    · rintro ⟨h1, h2, h3⟩
      obtain ⟨r, hr, h4⟩ := (hd k v h2).1.1 h3
      exact ⟨r, hr, ((hf r hr).mem k v).2 ⟨h1, h2, h4⟩⟩
    · rintro ⟨r, hr, h1⟩
      obtain ⟨h2, h3, h4⟩ := ((hf r hr).mem k v).1 h1
      exact ⟨h2, h3, (hd k v h3).1.2 ⟨r, hr, h4⟩⟩

private theorem listed_div {places : List (MapComp (Q := Q) A Ent × Ent)} {qs : List (QualifierQuery Q)}
    (hd : DividesInto places s q qs) {Ls : List (List (Qualifier Q × s.Val))}
    (hL : List.Forall₂ (MatchesAt q s) places Ls) {f : QualifierQuery Q → List (List (Qualifier Q × s.Val))}
    (hf : ∀ r ∈ qs, List.Forall₂ (MatchesAt r s) places (f r)) :
    Ls.flatten.Perm (qs.flatMap fun r => (f r).flatten) := by
  induction hL generalizing f with
  | nil =>
    have : (qs.flatMap fun r => (f r).flatten) = [] := by
      rw [List.flatMap_eq_nil_iff]
      intro r hr
      have := hf r hr
      cases hx : f r with
      | nil => rfl
      | cons _ _ => rw [hx] at this; cases this
    rw [this]; exact .refl _
  | @cons x L places Ls hx _ ih =>
    have hs : ∀ r ∈ qs, MatchesAt r s x ((f r).headD []) ∧ List.Forall₂ (MatchesAt r s) places (f r).tail ∧
        (f r).flatten = (f r).headD [] ++ (f r).tail.flatten := by
      intro r hr
      have := hf r hr
      cases hfr : f r with
      | nil => rw [hfr] at this; cases this
      | cons M Ms =>
        rw [hfr] at this
        cases this with
        | cons h1 h2 => exact ⟨h1, h2, rfl⟩
    have e1 : (qs.flatMap fun r => (f r).flatten) = qs.flatMap fun r => (f r).headD [] ++ (f r).tail.flatten := by
      unfold List.flatMap
      rw [List.map_congr_left fun r hr => (hs r hr).2.2]
    rw [List.flatten_cons, e1]
    exact ((matches_div (fun k v => hd x (by simp) k v) hx fun r hr => (hs r hr).1).append
      (ih (fun p hp => hd p (by simp [hp])) fun r hr => (hs r hr).2.1)).trans (List.flatMap_append_perm _ _ _)

/-- C120, for every value type: the values that a query joins are those that the queries it is made up of join,
in some order. -/
theorem C120_values (h : OnlyMaps J own items) (qs : List (QualifierQuery Q))
    (hd : DividesInto (mapPlaces J own items e) s q qs) (hs : Storable (E.layout s.ty))
    (he : J.world.isStat e = true) (v : s.Val) (hv : J.world.startValue A s = .ok (.val s.ty v)) :
    ∃ (l : List s.Val) (f : QualifierQuery Q → List s.Val), l.Perm (qs.flatMap f) ∧
      (∀ n, J.answer A (n + 1) (.stat e q s) = (joinList s.sv v l >>= fun x => .ok (some x))) ∧
      ∀ r n, J.answer A (n + 1) (.stat e r s) = (joinList s.sv v (f r) >>= fun x => .ok (some x)) := by
  obtain ⟨Ls, h1, -, h2⟩ := C86_exact h e q s hs he v hv
  choose f h3 _ h4 using fun r => C86_exact h e r s hs he v hv
  refine ⟨_, fun r => (f r).flatten.map (·.2), ?_, h2, h4⟩
  have := (listed_div hd h1 fun r _ => h3 r).map (·.2)
  rwa [List.map_flatMap] at this

private theorem forall₂_flatMap {α β γ : Type} {R : β → γ → Prop} (f : α → List β) (l : List α) {m : List γ}
    (h : List.Forall₂ R (l.flatMap f) m) :
    ∃ ms : List (List γ), List.Forall₂ (fun a m => List.Forall₂ R (f a) m) l ms ∧ m = ms.flatten := by
  induction l generalizing m with
  | nil => cases h; exact ⟨[], .nil, rfl⟩
  | cons a l ih =>
    rw [List.flatMap_cons] at h
    have hs : ∀ (l₁ l₂ : List β) {m : List γ}, List.Forall₂ R (l₁ ++ l₂) m →
        ∃ m₁ m₂, List.Forall₂ R l₁ m₁ ∧ List.Forall₂ R l₂ m₂ ∧ m = m₁ ++ m₂ := by
      intro l₁ l₂
      induction l₁ with
      | nil => exact fun h => ⟨[], _, .nil, h, rfl⟩
      | cons x l₁ ih =>
        intro m h
        cases h with
        | cons hx h =>
          obtain ⟨m₁, m₂, h1, h2, rfl⟩ := ih h
          exact ⟨_ :: m₁, m₂, .cons hx h1, h2, rfl⟩
    obtain ⟨m₁, m₂, h1, h2, rfl⟩ := hs _ _ h
    obtain ⟨ms, h3, rfl⟩ := ih h2
    exact ⟨m₁ :: ms, .cons h1 h3, rfl⟩

/-- Both ways of putting the operations together: as the query does, and by joining what the queries it is made up of
do. -/
private theorem div_trees (h : OnlyMaps J own items) (qs : List (QualifierQuery Q))
    (hd : DividesInto (mapPlaces J own items e) s q qs) (hs : Storable (E.layout s.ty))
    (he : J.world.isStat e = true) (hv : J.world.startValue A s = .ok (.val s.ty s.sv.default))
    {L : List (StatOp s.sv)} (hL : StoredFrom (mapPlaces J own items e) q s rfl L) :
    ∃ (t : Tree s.sv) (us : List (Tree s.sv)), t.NoReset ∧ t.leaves.Perm L ∧
      (∀ n, J.answer A (n + 1) (.stat e q s) = (t.run >>= fun x => .ok (some x))) ∧
      List.Forall₂ (fun r u => Tree.NoReset u ∧
        ∀ n, J.answer A (n + 1) (.stat e r s) = (u.run >>= fun x => .ok (some x))) qs us ∧
      (us.flatMap Tree.leaves).Perm L := by
  obtain ⟨Ms, ts, m1, m2, rfl⟩ := hL
  obtain ⟨Ls, h1, -, h2⟩ := C86_exact h e q s hs he _ hv
  choose f h3 _ h4 using fun r => C86_exact h e r s hs he _ hv
  have noReset : ∀ {l : List (Qualifier Q × s.Val)} {us : List (Tree s.sv)},
      List.Forall₂ (fun x t => Tree.NoReset t ∧ t.run = .ok x.2) l us → ∀ t ∈ us, t.NoReset := by
    intro l us hu
    induction hu with
    | nil => intro t ht; cases ht
    | cons hx _ ih => exact List.forall_mem_cons.2 ⟨hx.1, ih⟩
  have runs : ∀ {l : List (Qualifier Q × s.Val)} {us : List (Tree s.sv)},
      List.Forall₂ (fun x t => Tree.NoReset t ∧ t.run = .ok x.2) l us →
      (us.foldl Tree.join .dflt).run = joinList s.sv s.sv.default (l.map (·.2)) := fun hu =>
    Tree.foldl_join_run (fun x : Qualifier Q × s.Val => x.2) _ _ _ _ rfl hu
  obtain ⟨ts₁, a1, a2⟩ := forall₂_perm (listed_perm m1 h1) m2
  obtain ⟨ts₂, b1, b2⟩ := forall₂_perm (listed_div hd m1 fun r _ => h3 r) m2
  obtain ⟨tss, c1, rfl⟩ := forall₂_flatMap _ _ b1
  refine ⟨ts₁.foldl Tree.join .dflt, tss.map fun ts => ts.foldl Tree.join .dflt,
    Tree.foldl_join_noReset _ _ trivial (noReset a1), ?_, fun n => ?_, ?_, ?_⟩
  · rw [Tree.foldl_join_leaves]
    exact a2.symm.flatMap_right _
  · rw [runs a1]; exact h2 n
  · rw [List.forall₂_map_right_iff]
    refine c1.imp fun r us hu => ⟨Tree.foldl_join_noReset _ _ trivial (noReset hu), fun n => ?_⟩
    rw [runs hu]; exact h4 r n
  · have : (tss.map fun ts => ts.foldl Tree.join .dflt).flatMap Tree.leaves = tss.flatten.flatMap Tree.leaves := by
      clear b2 c1 b1
      induction tss with
      | nil => rfl
      | cons us tss ih =>
        rw [List.map_cons, List.flatMap_cons, ih, Tree.foldl_join_leaves, List.flatten_cons, List.flatMap_append]
        rfl
    rw [this]
    exact b2.symm.flatMap_right _

/-- C120, for every shipped type: where the operations fit together, the query and all queries that it is made up of
answer, their answers can be joined, and this evaluates to what the query evaluates to, as far as the operations
determine it. -/
theorem C120_same (h : OnlyMaps J own items) (qs : List (QualifierQuery Q))
    (hd : DividesInto (mapPlaces J own items e) s q qs) (hs : Storable (E.layout s.ty))
    (he : J.world.isStat e = true) (hv : J.world.startValue A s = .ok (.val s.ty s.sv.default))
    {V : Type} {D : StatValue V} {hD : s.Is D} {okOp : StatOp D → Prop} {Fits : List (StatOp D) → Prop}
    {Value : List (StatOp D) → D.Out → Prop} (hC : ClosedForm D okOp Fits Value) {L : List (StatOp D)}
    (hL : StoredFrom (mapPlaces J own items e) q s hD L) (hok : ∀ o ∈ L, okOp o) (hf : Fits L) :
    ∃ (w : s.Val) (ws : List s.Val) (w' : s.Val) (out out' : s.sv.Out),
      (∀ n, J.answer A (n + 1) (.stat e q s) = .ok (some w)) ∧ s.sv.eval w = .ok out ∧
      List.Forall₂ (fun r w => ∀ n, J.answer A (n + 1) (.stat e r s) = .ok (some w)) qs ws ∧
      joinList s.sv s.sv.default ws = .ok w' ∧ s.sv.eval w' = .ok out' ∧
      Value L (asOut hD out) ∧ Value L (asOut hD out') := by
  cases hD
  obtain ⟨t, us, h1, h2, h3, h4, h5⟩ := div_trees h qs hd hs he hv hL
  have key : ∀ t : Tree s.sv, t.NoReset → t.leaves.Perm L →
      ∃ v out, t.run = .ok v ∧ s.sv.eval v = .ok out ∧ Value L out := by
    intro t h1 h2
    obtain ⟨v, out, h3, h4, h5⟩ := hC.eval t h1 (fun o ho => hok o (h2.mem_iff.1 ho))
      (hC.hereditary L _ h2.subperm hf)
    exact ⟨v, out, h3, h4, hC.perm _ _ _ h2 h5⟩
  obtain ⟨w, out, a1, a2, a3⟩ := key t h1 h2
  have hws : ∀ u ∈ us, u.NoReset ∧ ∃ w, u.run = .ok w := by
    intro u hu
    obtain ⟨i, hi, rfl⟩ := List.getElem_of_mem hu
    have hr := (h4.get (i := i) (by rw [h4.length_eq]; exact hi) hi).1
    have hsub : (us[i]).leaves.Subperm L := by
      refine (List.Sublist.subperm ?_).trans h5.subperm
      have := List.sublist_flatten_of_mem (List.mem_map.2 ⟨us[i], hu, rfl⟩ : Tree.leaves us[i] ∈ us.map Tree.leaves)
      exact this
    obtain ⟨v, out, h6, -⟩ := hC.eval us[i] hr (fun o ho => hok o (hsub.subset ho)) (hC.hereditary L _ hsub hf)
    exact ⟨hr, v, h6⟩
  obtain ⟨ws, b1⟩ : ∃ ws : List s.Val, List.Forall₂ (fun w u => Tree.NoReset u ∧ u.run = .ok w) ws us := by
    clear h4 h5
    induction us with
    | nil => exact ⟨[], .nil⟩
    | cons u us ih =>
      obtain ⟨ws, hw⟩ := ih fun u hu => hws u (by simp [hu])
      obtain ⟨hr, w, h6⟩ := hws u (by simp)
      exact ⟨w :: ws, .cons ⟨hr, h6⟩ hw⟩
  have hj : (us.foldl Tree.join .dflt).run = joinList s.sv s.sv.default ws := by
    have := Tree.foldl_join_run (D := s.sv) id ws us .dflt _ rfl b1
    rwa [List.map_id] at this
  obtain ⟨w', out', c1, c2, c3⟩ := key (us.foldl Tree.join .dflt)
    (Tree.foldl_join_noReset _ _ trivial fun u hu => (hws u hu).1) (by
      rw [Tree.foldl_join_leaves]; exact h5)
  refine ⟨w, ws, w', out, out', fun n => by rw [h3 n, a1]; rfl, a2, ?_, hj.symm.trans c1, c2, a3, c3⟩
  clear hj hws h5 c1 hd
  induction h4 generalizing ws with
  | nil => cases b1; exact .nil
  | cons hx _ ih =>
    cases b1 with
    | cons hb b1 => exact .cons (fun n => by rw [hx.2 n, hb.2]; rfl) (ih _ b1)

/-- C120, for types whose operations commute: whenever the query and those it is made up of answer, and their answers
can be joined, this is the answer to the query, in all its parts and whatever the size of the operands. -/
theorem C120_unordered (h : OnlyMaps J own items) (qs : List (QualifierQuery Q))
    (hd : DividesInto (mapPlaces J own items e) s q qs) (hs : Storable (E.layout s.ty))
    (he : J.world.isStat e = true) (hv : J.world.startValue A s = .ok (.val s.ty s.sv.default))
    {okOp : StatOp s.sv → Prop} (hU : Unordered s.sv okOp) {L : List (StatOp s.sv)}
    (hL : StoredFrom (mapPlaces J own items e) q s rfl L) (hok : ∀ o ∈ L, okOp o) (n : Nat) (w w' : s.Val)
    (ws : List s.Val) (hw : J.answer A (n + 1) (.stat e q s) = .ok (some w))
    (hws : List.Forall₂ (fun r w => J.answer A (n + 1) (.stat e r s) = .ok (some w)) qs ws)
    (hj : joinList s.sv s.sv.default ws = .ok w') : w = w' := by
  obtain ⟨t, us, h1, h2, h3, h4, h5⟩ := div_trees h qs hd hs he hv hL
  have ret : ∀ {u : Res s.Val} {w : s.Val}, (u >>= fun x => .ok (some x)) = .ok (some w) → u = .ok w := by
    intro u w hu
    obtain ⟨x, hx, hx'⟩ := Res.bind_eq_ok.1 hu
    cases hx'
    exact hx
  have b1 : List.Forall₂ (fun w u => Tree.NoReset u ∧ u.run = .ok w) ws us := by
    clear hj h5 hd
    induction h4 generalizing ws with
    | nil => cases hws; exact .nil
    | cons hx _ ih =>
      cases hws with
      | cons hw' hws => exact .cons ⟨hx.1, ret ((hx.2 n).symm.trans hw')⟩ (ih _ hws)
  have hr : (us.foldl Tree.join .dflt).run = joinList s.sv s.sv.default ws := by
    have := Tree.foldl_join_run (D := s.sv) id ws us .dflt _ rfl b1
    rwa [List.map_id] at this
  have hl : (us.foldl Tree.join .dflt).leaves.Perm L := by rw [Tree.foldl_join_leaves]; exact h5
  refine hU t (us.foldl Tree.join .dflt) w w' h1 (Tree.foldl_join_noReset _ _ trivial fun u hu => ?_)
    (fun o ho => hok o (h2.mem_iff.1 ho)) (h2.trans hl.symm) (ret ((h3 n).symm.trans hw)) (hr.trans hj)
  obtain ⟨i, hi, rfl⟩ := List.getElem_of_mem hu
  exact (h4.get (i := i) (by rw [h4.length_eq]; exact hi) hi).1

/-- C120: flags of which there are finitely many have finitely many sets. -/
theorem C120_subsets [Finite Q] (x : Q) : ∃ ys, Subsets x ys := by
  classical
  have := Fintype.ofFinite Q
  exact ⟨(Finset.univ.filter fun y => FlagSpec.Within y x).toList, Finset.nodup_toList _, fun y => by simp⟩

/-- C120, from the calls: maps filled by `insert_base`, `modify`, `remove`, `remove_all` and `clear` hold what was
assembled from the operations written down in the journals. -/
theorem C120_calls (ps : List ((Ent → Option (List (MapOp E Q))) × Ent)) {V : Type} {D : StatValue V} (hD : s.Is D)
    (hok : ∀ p ∈ ps, ∀ h, p.1 p.2 = some h → (∃ m, StatMap.run A h = .ok m) ∧ ∀ o ∈ h, o.WritesOps s)
    (Js : List (List (Qualifier Q × List (StatOp s.sv)))) (hJ : List.Forall₂ (JournalsAt q s) ps Js) :
    StoredFrom (ps.map fun x => (MapComp.ofOps (A := A) x.1, x.2)) q s hD (asOps hD (Js.flatten.flatMap (·.2))) := by
  cases hD
  induction hJ with
  | nil => exact ⟨[], [], .nil, .nil, rfl⟩
  | @cons x L ps Js hx _ ih =>
    obtain ⟨Lv, h1, ts, h2, h3⟩ := JournalsAt.matches (A := A) (c := x.1) (e := x.2) hx (hok x (by simp))
    obtain ⟨Ls, ts', h4, h5, h6⟩ := ih fun y hy => hok y (by simp [hy])
    refine ⟨Lv :: Ls, ts ++ ts', .cons h1 h4, List.rel_append h2 h5, ?_⟩
    rw [List.flatMap_append, h3, ← h6]
    simp [asOps]

/-! ### a concrete case -/

/-- a map with modifiers for everything, for flag 0 (in which flag 1 is an alternative), and for flag 1 -/
def demoKinds : Option (List (MapOp demo (BitVec 8))) :=
  some [.insertBase ⟨0, 0⟩ (demoInt 0) (5 : Int), .insertBase ⟨3, 1⟩ (demoInt 0) (20 : Int),
    .modify ⟨0, 1⟩ (demoInt 0) (.mul (3 : Int)), .insertBase ⟨0, 2⟩ (demoInt 0) (1000 : Int)]
def demoKindsAt (e : Nat) : Option (List (MapOp demo (BitVec 8))) := if e = 0 then demoKinds else none

def demoKindsWorld : Joined demo (BitVec 8) Nat :=
  ({ demoWorld with relations := none }).withComponent (MapComp.ofOps (A := demoAddr) demoKindsAt).stream

/-- `(0 + 5 + 20) * 3` is `0 + 5` joined with `(0 + 20) * 3` -/
example : (demoKindsWorld.answer demoAddr 1 (.stat 0 (.aggregate 1) (demoInt 0)) : Res (Option StatInt)) =
      .ok (some ⟨25, -2147483648, 2147483647, 3⟩) ∧
    (demoKindsWorld.answer demoAddr 1 (.stat 0 (.exact 0 0) (demoInt 0)) : Res (Option StatInt)) =
      .ok (some ⟨5, -2147483648, 2147483647, 1⟩) ∧
    (demoKindsWorld.answer demoAddr 1 (.stat 0 (.exact 0 1) (demoInt 0)) : Res (Option StatInt)) =
      .ok (some ⟨20, -2147483648, 2147483647, 3⟩) := ⟨rfl, rfl, rfl⟩

theorem demo_subsets : Subsets (1 : BitVec 8) [0, 1] where
  once := by decide
  mem y := by
    have : ∀ y : BitVec 8, y ∈ [(0 : BitVec 8), 1] ↔ ∀ f : Fin 8, y[f.val] = true → (1 : BitVec 8)[f.val] = true := by
      decide +kernel
    exact this y

theorem demoKinds_stored (k : Qualifier (BitVec 8)) (v : StatInt)
    (h : (MapComp.ofOps (A := demoAddr) demoKindsAt).stored 0 ⟨demoInt 0, k⟩ = some v) :
    k = ⟨0, 0⟩ ∨ k = ⟨3, 1⟩ ∨ k = ⟨0, 1⟩ ∨ k = ⟨0, 2⟩ := by
  by_contra hc
  simp only [not_or] at hc
  obtain ⟨a, ha, hs⟩ : ∃ a, PMap.run (demoKinds.getD []) = .ok a ∧
      (MapComp.ofOps (A := demoAddr) demoKindsAt).stored 0 = a := ⟨_, rfl, rfl⟩
  have : a ⟨demoInt 0, k⟩ = none := by
    refine PMap.run_unused (demoKinds.getD []) ⟨demoInt 0, k⟩ (a := PMap.empty) rfl (fun o ho hk => ?_) ha
    simp only [demoKinds, Option.getD_some, List.mem_cons, List.not_mem_nil, or_false] at ho
    rcases ho with rfl | rfl | rfl | rfl <;> cases hk <;> simp at hc
  rw [hs, this] at h
  cases h

/-- the query for flag 0 is made up of two exact queries -/
theorem demoKinds_divides : DividesInto (mapPlaces demoKindsWorld ([demoKindsAt].map (MapComp.ofOps (A := demoAddr))) [] 0)
    (demoInt 0) (.aggregate 1) [.exact 0 0, .exact 0 1] := by
  refine C120_exacts _ (demoInt 0) 1 [0, 1] demo_subsets ?_
  intro p hp k v hv _
  cases List.mem_singleton.1 (show p ∈ [_] from hp)
  rcases demoKinds_stored k v hv with rfl | rfl | rfl | rfl
  · exact .inl fun f => by simp [FlagSet.has]
  · exact .inr ⟨(⟨0, by decide⟩ : Fin 8), rfl, rfl⟩
  · exact .inl fun f => by simp [FlagSet.has]
  · exact .inl fun f => by simp [FlagSet.has]

theorem demoKinds_from : StoredFrom (mapPlaces demoKindsWorld ([demoKindsAt].map (MapComp.ofOps (A := demoAddr))) [] 0)
    (.aggregate 1) (demoInt 0) (D := statInt ⟨.i32, .prim, .debug⟩) rfl [.base 5, .base 20, .mul 3] := by
  refine C120_calls (A := demoAddr) (s := demoInt 0) [(demoKindsAt, 0)] rfl ?_
    [[(⟨0, 0⟩, [.base (5 : Int)]), (⟨3, 1⟩, [.base (20 : Int)]), (⟨0, 1⟩, [.mul (3 : Int)])]]
    (.cons ⟨by decide, fun k l => ?_⟩ .nil)
  · intro p hp h hh
    cases List.mem_singleton.1 hp
    cases hh
    refine ⟨⟨_, rfl⟩, fun o ho => ?_⟩
    simp only [List.mem_cons, List.not_mem_nil, or_false] at ho
    rcases ho with rfl | rfl | rfl | rfl <;> trivial
  · have hj : ∀ k, Journal.ofCalls (demoInt 0) (demoKinds.getD []) k =
        if k = ⟨0, 2⟩ then some [.base (1000 : Int)] else
        if k = ⟨0, 1⟩ then some [.mul (3 : Int)] else
        if k = ⟨3, 1⟩ then some [.base (20 : Int)] else
        if k = ⟨0, 0⟩ then some [.base (5 : Int)] else none := fun k => rfl
    constructor
    · intro h
      simp only [List.mem_cons, List.not_mem_nil, or_false] at h
      rcases h with h | h | h <;> cases h
      · exact ⟨_, rfl, rfl, by rw [← matches_iff]; decide⟩
      · exact ⟨_, rfl, rfl, by rw [← matches_iff]; decide⟩
      · exact ⟨_, rfl, rfl, by rw [← matches_iff]; decide⟩
    · rintro ⟨h, h1, h2, h3⟩
      cases h1
      have h2 := (hj k).symm.trans h2
      split at h2
      · next hk => subst hk; rw [← matches_iff] at h3; exact absurd h3 (by decide)
      · split at h2
        · next hk => cases h2; rw [hk]; simp
        · split at h2
          · next hk => cases h2; rw [hk]; simp
          · split at h2
            · next hk => cases h2; rw [hk]; simp
            · cases h2

/-- the hypotheses of `C120_same` are met -/
example : ∃ (w : StatInt) (ws : List StatInt) (w' : StatInt) (out out' : Int),
    (∀ n, demoKindsWorld.answer demoAddr (n + 1) (.stat 0 (.aggregate 1) (demoInt 0)) = .ok (some w)) ∧
    (demoInt 0).sv.eval w = .ok out ∧
    List.Forall₂ (fun r w => ∀ n, demoKindsWorld.answer demoAddr (n + 1) (.stat 0 r (demoInt 0)) = .ok (some w))
      [.exact 0 0, .exact 0 1] ws ∧
    joinList (demoInt 0).sv (demoInt 0).sv.default ws = .ok w' ∧ (demoInt 0).sv.eval w' = .ok out' ∧
    out = 75 ∧ out' = 75 :=
  C120_same (own := [demoKindsAt].map (MapComp.ofOps (A := demoAddr))) (items := []) (s := demoInt 0)
    ⟨rfl, rfl, rfl, rfl⟩ _ demoKinds_divides (by decide) rfl rfl
    (C112_closed_int ⟨.i32, .prim, .debug⟩ rfl) demoKinds_from (by decide) (by unfold statInt.Fits; decide)

end BSQ
