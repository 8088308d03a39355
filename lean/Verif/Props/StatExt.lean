import Verif.Model.StatExt
import Verif.Props.Cast
import Verif.Spec.Demo
/-!
# C68: generic stats
-/
namespace BSQ
variable {E : Env} (A : Addr E)

/-- **C68** `is` compares stat type and index, so two stats of one type with different indices, and stats of
different types with the same index, are told apart. -/
theorem C68_is {S T : E.S} (x : E.Sel S) (y : E.Sel T) :
    E.isStat A x y = true ↔ S = T ∧ E.asIndex x = E.asIndex y := by
  unfold Env.isStat
  rw [StatInst.eq_iff A]
  simp [Env.asEntry]

/-- **C68** `is` is an equivalence on stats of all types. -/
theorem C68_equivalence {S T U : E.S} (x : E.Sel S) (y : E.Sel T) (z : E.Sel U) :
    E.isStat A x x = true ∧ (E.isStat A x y = true → E.isStat A y x = true) ∧
    (E.isStat A x y = true → E.isStat A y z = true → E.isStat A x z = true) := by
  simp only [C68_is]
  exact ⟨by simp, fun h => ⟨h.1.symm, h.2.symm⟩, fun h g => ⟨h.1.trans g.1, h.2.trans g.2⟩⟩

/-- **C68** `cast` to a stat's own type gives back the stat and the value. -/
theorem C68_cast_self {S : E.S} (x : E.Sel S) (v : E.El (E.valTy S)) : E.castStat S x v = some (x, v) := by
  simp [Env.castStat, Env.downcastStat, Env.downcastVal]

/-- **C68** `cast` to any other type gives nothing, even when the value types agree. -/
theorem C68_cast_other {S T : E.S} (h : S ≠ T) (x : E.Sel S) (v : E.El (E.valTy S)) : E.castStat T x v = none := by
  simp [Env.castStat, h]

/-- **C68** `is_then_cast` gives the value exactly when the stats are equal; it is never lost to the second check
and never seen at another type. -/
theorem C68_is_then_cast {S T : E.S} (x : E.Sel S) (y : E.Sel T) (v : E.El (E.valTy S)) :
    ((E.isThenCastStat A x y v).isSome ↔ S = T ∧ E.asIndex x = E.asIndex y) ∧
    ∀ w, E.isThenCastStat A x y v = some w → HEq w v := by
  have hi := C68_is A x y
  unfold Env.isThenCastStat
  cases hb : E.isStat A x y with
  | false =>
    rw [hb] at hi
    simp only [Bool.false_eq_true, false_iff] at hi
    simp [hi]
  | true =>
    obtain ⟨h, hx⟩ := hi.1 hb
    subst h
    simp [Env.downcastVal, hx]

/-- **C68** The generic checks agree with the type-erased ones on pairs: `cast` with `StatValuePair::cast`, and
`is_then_cast` with `StatValuePair::is_then_cast`, wherever those return and `from_index` undoes `as_index`. -/
theorem C68_agrees {S T : E.S} (x : E.Sel S) (y : E.Sel T) (v : E.El (E.valTy S)) (p : Pair E)
    (hp : Pair.new (E.asEntry x) v = .ok p) (hx : E.fromIndex S (E.asIndex x) = .ok x)
    (hT : Storable (E.statLayout T)) :
    p.cast A T = .ok (E.castStat T x v) ∧ p.isThenCast A y = .ok (E.isThenCastStat A x y v) := by
  have hp' : p = Pair.typed (E.asEntry x) v := by
    simp only [Pair.new, Buf.from_, Res.bind_eq_ok] at hp
    obtain ⟨b, ⟨_, _, hb⟩, hp⟩ := hp
    cases hb
    cases hp
    rfl
  subst hp'
  constructor
  · by_cases h : S = T
    · subst h
      rw [C36_cast_self_partial A x v hT hx, C68_cast_self]
    · rw [(C36_cast_partial A (E.asEntry x) v T hT).2 (fun h' => h h'.symm), C68_cast_other h]
  · obtain ⟨h1, h2⟩ := C36_isThenCast_partial A y hT
    by_cases h : E.asEntry x = E.asEntry y
    · have hST : S = T := congrArg StatInst.vt h
      subst hST
      have hi : E.asIndex x = E.asIndex y := congrArg StatInst.index h
      have he : E.isThenCastStat A x y v = some v := by
        have := (C68_is A x y).2 ⟨rfl, hi⟩
        simp [Env.isThenCastStat, this, Env.downcastVal]
      rw [he]
      have h3 : Pair.typed (E.asEntry x) v = Pair.typed (E.asEntry y) v := by
        simp only [Pair.typed, h]
        rfl
      rw [h3]
      exact h1 v
    · rw [h2 _ v h]
      have hb : E.isStat A x y = false := by
        cases hb : E.isStat A x y
        · rfl
        · exact absurd ((StatInst.eq_iff A _ _).1 hb) h
      simp [Env.isThenCastStat, hb]

/-- two integer stats and a flag stat with the same index -/
example : demo.isStat demoAddr (S := true) (T := true) (1 : Nat) (1 : Nat) = true ∧
    demo.isStat demoAddr (S := true) (T := true) (1 : Nat) (2 : Nat) = false ∧
    demo.isStat demoAddr (S := true) (T := false) (1 : Nat) (1 : Nat) = false := by decide +kernel

/-- the pair of an integer stat, cast both ways -/
example : ∃ p, Pair.new (demo.asEntry (s := true) (1 : Nat)) (⟨7, 0, 10, 1⟩ : StatInt) = .ok p ∧
    p.cast demoAddr true = .ok (demo.castStat (S := true) true (1 : Nat) (⟨7, 0, 10, 1⟩ : StatInt)) ∧
    p.cast demoAddr false = .ok none := ⟨_, rfl, rfl, rfl⟩

end BSQ
