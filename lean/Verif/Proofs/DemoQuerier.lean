import Verif.Spec.DemoQuerier
import Verif.Proofs.StatMap
/-! # The demo queriers are well-behaved -/
namespace BSQ

theorem demoAdd_safe (k : Int) : Call.Safe (demoAdd k) := by
  rintro ⟨⟨vt, i⟩, b⟩ ⟨v, hv⟩
  cases vt with
  | true =>
    change StatInt at v
    change b = .val true v at hv
    subst hv
    have hc : Pair.cast demoAddr (⟨demoInt i, .val true v⟩ : Pair demo) true = .ok (some (i, v)) := rfl
    unfold demoAdd
    rw [hc]
    change Prog.All _ (Prog.lift ((demoSv true).add v k >>= fun v' => .ok (Pair.write ⟨demoInt i, .val true v⟩ true v')))
    have hn : (demoSv true).add v k ≠ .error .ub := by
      change ((⟨.i32, .prim, .debug⟩ : NumTy).add v.addend k >>= _) ≠ _
      unfold NumTy.add NumTy.fit
      split_ifs <;> simp [NumTy.ovf]
    cases h : (demoSv true).add v k with
    | error x =>
      rw [h] at hn
      intro hx
      exact hn (by rw [hx])
    | ok v' => exact ⟨rfl, v', rfl⟩
  | false =>
    change StatFlags (BitVec 8) at v
    change b = .val false v at hv
    subst hv
    exact ⟨rfl, v, rfl⟩

theorem demoJoined_safe : demoJoined.Safe demoAddr where
  globals g hg e q := by
    cases List.mem_singleton.1 hg
    exact demoAdd_safe 1
  streams st hst e it _ this q := by
    have : demoJoined.comp.leaves ++ demoJoined.rel.leaves ++ demoJoined.child.leaves =
      [demoComp, demoRel, demoChild] := rfl
    rw [this] at hst
    simp only [List.mem_cons, List.not_mem_nil, or_false] at hst
    rcases hst with rfl | rfl | rfl
    · exact demoAdd_safe _
    · exact fun p hp => ⟨rfl, hp⟩
    · exact demoAdd_safe _
  relations st hst a b q := by
    cases List.mem_singleton.1 hst
    exact demoAdd_safe _
  attrs st hst e it _ this a := by
    have : demoJoined.comp.leaves ++ demoJoined.rel.leaves ++ demoJoined.child.leaves =
      [demoComp, demoRel, demoChild] := rfl
    rw [this] at hst
    simp only [List.mem_cons, List.not_mem_nil, or_false] at hst
    rcases hst with rfl | rfl | rfl <;> · intro h; cases h
  defaults d hd := by cases hd

end BSQ
