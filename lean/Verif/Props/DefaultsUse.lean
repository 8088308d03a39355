import Verif.Props.DefaultsExact
import Verif.Props.DropTyped
/-!
# C67 and C80 for registered defaults, exactly
-/
namespace BSQ
variable {E : Env} (A : Addr E)

/-- no operation is left in the registry, stat by stat and entry by entry -/
theorem DefFine.holdsOwn {d : Defaults E} {f : DMap E} (hn : (d.map (·.1)).Nodup) (h : ∀ s, DefSlot A d s (f s)) :
    (∀ s, DefFine A d s []) ↔ ∀ x ∈ d, ∃ v : x.1.Val, f x.1 = some v ∧ x.2 = .val x.1.ty v ∧
      Storable (E.layout x.1.ty) := by
  constructor
  · intro hf x hx
    have h1 := HMap.get_of_mem (StatInst.eq_iff A) hn (show (x.1, x.2) ∈ d from hx)
    have h2 := hf x.1
    unfold DefFine at h2
    rcases h x.1 with ⟨g1, g2⟩ | ⟨v, g1, g2, g3⟩ | ⟨v, o, g1, g2, g3⟩
    · rw [h1] at g2
      cases g2
    · rw [h1] at g2
      exact ⟨v, g1, Option.some.inj g2, g3⟩
    · rw [g2] at h2
      obtain ⟨_, _, _, h2⟩ := h2
      cases h2
  · intro hx s
    unfold DefFine
    cases hg : HMap.get (StatInst.eq A) d s with
    | none => trivial
    | some b =>
      obtain ⟨v, -, hb, -⟩ := hx _ (HMap.mem_of_get (StatInst.eq_iff A) hg)
      have hb : b = .val s.ty v := hb
      rw [hb]
      trivial

/-- **C80, exactly**, for the registered defaults: after a history whose values can be stored and whose bounds apply,
dropping them drops each value as what it is if and only if the registrations of each stat start with a default, or
with a single bound that a default then replaces. -/
theorem C80_defaults_history_iff (os : List (DefOp E)) (f : DMap E) (hf : DMap.run os = .ok f) :
    (∃ d, Defaults.run A os = .ok d ∧ Defaults.drop d = .ok ()) ↔ ∀ s, DefOp.Fine (DefOp.about s os) := by
  refine DefFine.run_iff A os f hf _ fun d hd h => ?_
  have hn : (d.map (·.1)).Nodup := Defaults.nodup_runFrom A os [] d (by simp) hd
  rw [C80_defaults_iff, DefFine.holdsOwn A hn h]
  constructor
  · intro ho x hx
    obtain ⟨⟨v, hv⟩, hs⟩ := ho x hx
    have h1 := HMap.get_of_mem (StatInst.eq_iff A) hn (show (x.1, x.2) ∈ d from hx)
    rcases h x.1 with ⟨g1, g2⟩ | ⟨w, g1, g2, g3⟩ | ⟨w, o, g1, g2, g3⟩
    · rw [h1] at g2
      cases g2
    · rw [h1] at g2
      exact ⟨w, g1, Option.some.inj g2, g3⟩
    · rw [h1] at g2
      have g2 := Option.some.inj g2
      rw [hv] at g2
      cases g2
  · intro ho x hx
    obtain ⟨v, -, hv, hs⟩ := ho x hx
    exact ⟨⟨v, hv⟩, hs⟩

/-- **C67, exactly**, for the registered defaults: if all stats registered by such a history have names, printing the
registry shows each of them once with the value a query would start from, if and only if the registrations of each
stat start with a default, or with a single bound that a default then replaces. -/
theorem C67_defaults_iff (os : List (DefOp E)) (f : DMap E) (hf : DMap.run os = .ok f)
    (hnm : ∀ s, (f s).isSome → Named s) :
    (∃ d, Defaults.run A os = .ok d ∧ ∃ r, d.debug = .ok r ∧ (d.map (·.1)).Nodup ∧
        (∀ s, (f s).isSome ↔ s ∈ d.map (·.1)) ∧ List.Forall₂ (fun x y => ∃ v, f x.1 = some v ∧ Shows x.1 v y) d r) ↔
      ∀ s, DefOp.Fine (DefOp.about s os) := by
  refine DefFine.run_iff A os f hf _ fun d hd h => ?_
  have hn : (d.map (·.1)).Nodup := Defaults.nodup_runFrom A os [] d (by simp) hd
  rw [DefFine.holdsOwn A hn h]
  constructor
  · rintro ⟨r, hr, -, -, hfa⟩ x hx
    have h1 := HMap.get_of_mem (StatInst.eq_iff A) hn (show (x.1, x.2) ∈ d from hx)
    rcases h x.1 with ⟨g1, g2⟩ | ⟨w, g1, g2, g3⟩ | ⟨w, o, g1, g2, g3⟩
    · rw [h1] at g2
      cases g2
    · rw [h1] at g2
      exact ⟨w, g1, Option.some.inj g2, g3⟩
    · exfalso
      rw [h1] at g2
      have g2 := Option.some.inj g2
      clear hfa h1 g1 h hn hd
      have : ∀ l : List (StatInst E × Buf E), x ∈ l → ∀ r, debugAll id l ≠ .ok r := by
        intro l hx
        induction l with
        | nil => cases hx
        | cons y l ih =>
          intro r hr
          simp only [debugAll, Res.bind_eq_ok] at hr
          obtain ⟨a, h1, b, h2, -⟩ := hr
          rcases List.mem_cons.1 hx with rfl | hx
          · simp only [debugOne, Res.bind_eq_ok, id] at h1
            obtain ⟨_, -, z, h3, -⟩ := h1
            simp only [g2, Buf.read, Res.bind_eq_ok] at h3
            obtain ⟨_, -, h3⟩ := h3
            cases h3
          · exact ih hx _ h2
      simp only [Defaults.debug, Res.bind_eq_ok] at hr
      obtain ⟨r', hl, -⟩ := hr
      exact this d hx _ hl
  · intro key
    obtain ⟨h1, -⟩ := debugAll_typed id d (fun x hx => (key x hx).imp fun v h => h.2)
    obtain ⟨r, hr', hfa⟩ := h1 (fun x hx => by
      obtain ⟨v, hv, _⟩ := key x hx
      exact hnm x.1 (by simp [hv]))
    refine ⟨r.map (·.2), by simp [Defaults.debug, hr'], hn, fun s => ⟨fun hs => ?_, fun hs => ?_⟩, ?_⟩
    · rcases h s with ⟨g1, g2⟩ | ⟨w, g1, g2, g3⟩ | ⟨w, o, g1, g2, g3⟩
      · rw [g1] at hs
        cases hs
      · exact List.mem_map.2 ⟨_, HMap.mem_of_get (StatInst.eq_iff A) g2, rfl⟩
      · exact List.mem_map.2 ⟨_, HMap.mem_of_get (StatInst.eq_iff A) g2, rfl⟩
    · obtain ⟨x, hx, rfl⟩ := List.mem_map.1 hs
      obtain ⟨v, hv, _⟩ := key x hx
      simp [hv]
    · rw [List.forall₂_map_right_iff]
      refine List.forall₂_iff_get.2 ⟨hfa.length_eq, fun i h3 h4 => ?_⟩
      obtain ⟨_, v, hv, hsh⟩ := (List.forall₂_iff_get.1 hfa).2 i h3 h4
      obtain ⟨w, hw, hb, _⟩ := key _ (List.get_mem d ⟨i, h3⟩)
      have hv : (List.get d ⟨i, h3⟩).2 = .val (List.get d ⟨i, h3⟩).1.ty v := hv
      rw [hb] at hv
      cases hv
      exact ⟨_, hw, hsh⟩

/-- a history in which a bound comes first and is replaced: printed and dropped well -/
example : (∃ d, Defaults.run demoAddr [.min (demoInt 0) (5 : Int), .default (demoInt 0) ⟨1, 0, 9, 1⟩] = .ok d ∧
    Defaults.drop d = .ok ()) :=
  (C80_defaults_history_iff demoAddr _ _ rfl).2 fun s => by
    by_cases h : s = demoInt 0
    · subst h
      simp [DefOp.about, DefOp.stat, DefOp.Fine]
      decide
    · simp [DefOp.about, DefOp.stat, Ne.symm h, DefOp.Fine]

end BSQ
