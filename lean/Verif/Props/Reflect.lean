import Verif.Spec.Reflect
import Verif.Props.SaveWorld
/-!
# C130  Reflection shows qualifiers, but nothing of a `StatMap`
-/
namespace BSQ
variable {E : Env} {Q F Ent : Type} [DecidableEq Ent]

/-- qualifiers survive reflection -/
theorem C130_qualifier [DecidableEq Q] :
    ReflectsAll (Qualifier.reflect Q).show_ (Qualifier.reflect Q).fromReflect (Qualifier.reflect Q).apply
      (Qualifier.reflect Q).partialEq where
  rebuild x := rfl
  apply x y := by simp [ReflStruct.apply, ReflStruct.show_, Qualifier.reflect]
  same x y := by
    cases x; cases y
    simp [ReflStruct.partialEq, ReflStruct.show_, Qualifier.reflect, Refl.field]

theorem Refl.field_iff {fs : List (String × F)} (h : (fs.map (·.1)).Nodup) (n : String) (x : F) :
    Refl.field fs n = some x ↔ (n, x) ∈ fs := by
  induction fs with
  | nil => simp [Refl.field]
  | cons f fs ih =>
    obtain ⟨m, y⟩ := f
    rw [List.map_cons, List.nodup_cons] at h
    unfold Refl.field at ih ⊢
    rw [List.find?_cons]
    by_cases hm : m = n
    · subst hm
      simp only [beq_self_eq_true, Option.map_some, Option.some.injEq, List.mem_cons, Prod.mk.injEq, true_and]
      refine ⟨fun h => .inl h.symm, fun hh => hh.elim Eq.symm fun hh => absurd (List.mem_map_of_mem (f := (·.1)) hh) h.1⟩
    · rw [beq_false_of_ne hm]
      simp only [ih h.2, List.mem_cons, Prod.mk.injEq]
      exact ⟨.inr, fun hh => hh.resolve_left fun hh => hm hh.1.symm⟩

/-- A qualifier and a struct with any fields (each name once, as always): it is built from it exactly if it has both
fields; applying it changes exactly the fields it has and ignores fields of other names; and it is equal to it
exactly if it has these two fields with these values, and no others. -/
theorem C130_fields [DecidableEq Q] (q : Qualifier Q) (fs : List (String × Q)) (h : (fs.map (·.1)).Nodup) :
    (∀ a b, (Qualifier.reflect Q).fromReflect (.struct fs) = some ⟨a, b⟩ ↔ ("any_of", a) ∈ fs ∧ ("all_of", b) ∈ fs) ∧
    (∃ q', (Qualifier.reflect Q).apply q (.struct fs) = some q' ∧
      (("any_of", q'.anyOf) ∈ fs ∨ q'.anyOf = q.anyOf ∧ "any_of" ∉ fs.map (·.1)) ∧
      (("all_of", q'.allOf) ∈ fs ∨ q'.allOf = q.allOf ∧ "all_of" ∉ fs.map (·.1))) ∧
    ((Qualifier.reflect Q).partialEq q (.struct fs) = true ↔ fs.Perm [("any_of", q.anyOf), ("all_of", q.allOf)]) := by
  refine ⟨fun a b => ?_, ?_, ?_⟩
  · rw [← Refl.field_iff h, ← Refl.field_iff h]
    simp only [ReflStruct.fromReflect, Qualifier.reflect, List.mapM_cons, List.mapM_nil]
    cases Refl.field fs "any_of" <;> cases Refl.field fs "all_of" <;> simp
  · simp only [ReflStruct.apply, Qualifier.reflect]
    refine ⟨_, rfl, ?_⟩
    induction fs generalizing q with
    | nil => simp
    | cons f fs ih =>
      obtain ⟨m, y⟩ := f
      rw [List.map_cons, List.nodup_cons] at h
      rw [List.foldl_cons]
      have ih := ih (if m ∈ ["any_of", "all_of"] then
        (if m = "any_of" then { q with anyOf := y } else { q with allOf := y }) else q) h.2
      simp only [List.map_cons, List.map_nil] at ih ⊢
      revert ih
      generalize List.foldl _ _ fs = q'
      rintro ⟨h1, h2⟩
      simp only [List.mem_cons, Prod.mk.injEq, not_or]
      by_cases ha : m = "any_of"
      · subst ha
        simp only [List.mem_cons, true_or, if_true] at h1 h2
        refine ⟨.inl ?_, h2.imp .inr fun hh => ⟨hh.1, by decide, hh.2⟩⟩
        exact h1.elim .inr fun hh => .inl ⟨rfl, hh.1⟩
      · by_cases hb : m = "all_of"
        · subst hb
          simp only [List.mem_cons, true_or, or_true, if_true, String.reduceEq, if_false] at h1 h2
          refine ⟨h1.imp .inr fun hh => ⟨hh.1, by decide, hh.2⟩, .inl ?_⟩
          exact h2.elim .inr fun hh => .inl ⟨rfl, hh.1⟩
        · rw [if_neg (by simp [ha, hb])] at h1 h2
          exact ⟨h1.imp .inr fun hh => ⟨hh.1, fun h => ha h.symm, hh.2⟩,
            h2.imp .inr fun hh => ⟨hh.1, fun h => hb h.symm, hh.2⟩⟩
  · have hin : (fs.all fun f => Refl.field (([("any_of", Qualifier.anyOf), ("all_of", Qualifier.allOf)] :
        List (String × (Qualifier Q → Q))).map fun g => (g.1, g.2 q)) f.1 == some f.2) = true ↔
        ∀ f ∈ fs, f ∈ [("any_of", q.anyOf), ("all_of", q.allOf)] := by
      rw [List.all_eq_true]
      refine forall₂_congr fun f _ => ?_
      rw [beq_iff_eq, Refl.field_iff (by simp)]
      rfl
    change (fs.length == 2 && _) = true ↔ _
    rw [Bool.and_eq_true, beq_iff_eq]
    refine (and_congr_right fun _ => hin).trans ?_
    have hnd : fs.Nodup := List.Nodup.of_map _ h
    constructor
    · rintro ⟨hl, hh⟩
      exact (List.subperm_of_subset hnd hh).perm_of_length_le (by simp [hl])
    · intro hp
      exact ⟨hp.length_eq, fun f hf => hp.subset hf⟩

/-- a struct with one of the fields and one that a qualifier does not have -/
example : (([("other", 1), ("all_of", 2)] : List (String × BitVec 8)).map (·.1)).Nodup ∧
    (Qualifier.reflect (BitVec 8)).apply ⟨4, 8⟩ (.struct [("other", 1), ("all_of", 2)]) = some ⟨4, 2⟩ ∧
    (Qualifier.reflect (BitVec 8)).fromReflect (.struct [("other", 1), ("all_of", 2)]) = none ∧
    (Qualifier.reflect (BitVec 8)).partialEq ⟨4, 2⟩ (.struct [("all_of", 2)]) = false := by decide

/-- queries survive reflection -/
theorem C130_query [DecidableEq Q] :
    ReflectsAll QualifierQuery.show_ QualifierQuery.fromReflect QualifierQuery.apply
      (fun (x : QualifierQuery Q) r => x.show_ == r) where
  rebuild x := by cases x <;> simp [QualifierQuery.show_, QualifierQuery.fromReflect, Refl.field]
  apply x y := by
    cases x <;> cases y <;>
      simp [QualifierQuery.show_, QualifierQuery.fromReflect, QualifierQuery.apply, Refl.field]
  same x y := by cases x <;> cases y <;> simp [QualifierQuery.show_]

/-- whatever a map is rebuilt from, it is rebuilt empty -/
theorem C130_rebuilt_empty (r : Refl F) (m : StatMap E Q) (h : (StatMap.reflect E Q F).fromReflect r = some m) :
    m = [] := by
  cases r <;> simp [ReflStruct.fromReflect, StatMap.reflect, StatMap.new] at h
  exact h

/-- whatever is applied to a map, it stays as it is -/
theorem C130_apply_nothing (m m' : StatMap E Q) (r : Refl F) (h : (StatMap.reflect E Q F).apply m r = some m') :
    m' = m := by
  cases r <;> simp [ReflStruct.apply, StatMap.reflect] at h
  exact h.symm

/-- all maps are the same to `reflect_partial_eq` -/
theorem C130_all_same [DecidableEq F] (m m' : StatMap E Q) :
    (StatMap.reflect E Q F).partialEq m ((StatMap.reflect E Q F).show_ m') = true := by
  simp [ReflStruct.partialEq, ReflStruct.show_, StatMap.reflect]

/-- as soon as there is a map with entries, reflection of maps is faithful in none of the three ways -/
theorem C130_not_faithful [DecidableEq F] (m : StatMap E Q) (hm : m ≠ []) :
    (StatMap.reflect E Q F).fromReflect ((StatMap.reflect E Q F).show_ m) ≠ some m ∧
    (StatMap.reflect E Q F).apply [] ((StatMap.reflect E Q F).show_ m) ≠ some m ∧
    ∃ m', m' ≠ m ∧ (StatMap.reflect E Q F).partialEq m' ((StatMap.reflect E Q F).show_ m) = true :=
  ⟨fun h => hm (C130_rebuilt_empty _ _ h), fun h => hm (C130_apply_nothing _ _ _ h), [], hm.symm,
    C130_all_same _ _⟩

/-- Copying the map of an entity to another world, as spawning a `Scene` does, never fails, puts an empty map on the
entity and touches no other. -/
theorem C130_copy (src w : Ent → Option (StatMap E Q)) (e e' : Ent) (m : StatMap E Q) (h : src e = some m) :
    ∃ w', (StatMap.reflect E Q F).copy src w e e' = .ok w' ∧ w' e' = some [] ∧ ∀ x, x ≠ e' → w' x = w x :=
  ⟨fun x => if x = e' then some [] else w x,
    by simp only [ReflStruct.copy, h]; rfl, by simp, fun x hx => by simp [hx]⟩

/-- the copy is right exactly for empty maps -/
theorem C130_copy_iff (src w w' : Ent → Option (StatMap E Q)) (e e' : Ent) (m : StatMap E Q) (h : src e = some m)
    (hc : (StatMap.reflect E Q F).copy src w e e' = .ok w') : w' e' = src e ↔ m = [] := by
  obtain ⟨w'', h₁, h₂, -⟩ := C130_copy (F := F) src w e e' m h
  obtain rfl : w'' = w' := Except.ok.inj (h₁.symm.trans hc)
  rw [h₂, h]
  exact ⟨fun hh => (Option.some.inj hh).symm, fun hh => by rw [hh]⟩

/-- Spawning a `DynamicScene`: an entity without a map gets an empty one, an entity with a map keeps the one it has,
whatever the scene holds. -/
theorem C130_dynamic (w : Ent → Option (StatMap E Q)) (e : Ent) (m : StatMap E Q) :
    ∃ w', (StatMap.reflect E Q F).applyOrInsert w e ((StatMap.reflect E Q F).show_ m) = .ok w' ∧
      w' e = some ((w e).getD []) ∧ ∀ x, x ≠ e → w' x = w x := by
  refine ⟨fun x => if x = e then some ((w e).getD []) else w x, ?_, by simp, fun x hx => by simp [hx]⟩
  unfold ReflStruct.applyOrInsert
  cases h : w e <;> rfl

/-- Whatever is inserted or applied: it works exactly for structs, and otherwise panics; copying works exactly if there
is a map to copy, and otherwise panics. -/
theorem C130_fails (src w : Ent → Option (StatMap E Q)) (e e' : Ent) (r : Refl F) (x : Err) :
    ((StatMap.reflect E Q F).insert w e r = .error x ↔ x = .panic ∧ ∀ fs, r ≠ .struct fs) ∧
    ((StatMap.reflect E Q F).applyOrInsert w e r = .error x ↔ x = .panic ∧ ∀ fs, r ≠ .struct fs) ∧
    ((StatMap.reflect E Q F).copy src w e e' = .error x ↔ x = .panic ∧ src e = none) := by
  have h1 : (StatMap.reflect E Q F).insert w e r = .error x ↔ x = .panic ∧ ∀ fs, r ≠ .struct fs := by
    cases r with
    | struct fs => exact ⟨(by intro h; cases h), fun h => absurd rfl (h.2 fs)⟩
    | _ => exact ⟨(by intro h; cases h; exact ⟨rfl, fun _ h => by cases h⟩), fun h => by rw [h.1]; rfl⟩
  refine ⟨h1, ?_, ?_⟩
  · unfold ReflStruct.applyOrInsert
    cases hw : w e with
    | none => exact h1
    | some m =>
      cases r with
      | struct fs => exact ⟨(by intro h; cases h), fun h => absurd rfl (h.2 fs)⟩
      | _ => exact ⟨(by intro h; cases h; exact ⟨rfl, fun _ h => by cases h⟩), fun h => by rw [h.1]; rfl⟩
  · unfold ReflStruct.copy
    cases hs : src e with
    | none => exact ⟨(by intro h; cases h; exact ⟨rfl, rfl⟩), fun h => by rw [h.1]⟩
    | some m => exact ⟨(by intro h; cases h), fun h => by cases h.2⟩

/-- every stat of a copied map is its default -/
theorem C130_defaults [BitFlags Q] [Ord Q] (A : Addr E) (src w w' : Ent → Option (StatMap E Q)) (e e' : Ent)
    (hc : (StatMap.reflect E Q F).copy src w e e' = .ok w') :
    ∃ m', w' e' = some m' ∧ ∀ (q : QualifierQuery Q) (s : StatInst E), Storable (E.layout s.ty) →
      StatMap.queryStat A m' q s = .ok s.sv.default := by
  cases h : src e with
  | none => simp [ReflStruct.copy, h] at hc
  | some m =>
    obtain ⟨w'', h₁, h₂, -⟩ := C130_copy (F := F) src w e e' m h
    obtain rfl : w'' = w' := Except.ok.inj (h₁.symm.trans hc)
    refine ⟨[], h₂, fun q s hs => ?_⟩
    have hv : validate (E.layout s.ty) = .ok () := by rw [validate_eq, if_pos hs]
    have hn : Pair.newDefault s = .ok ⟨s, .val s.ty s.sv.default⟩ := by
      unfold Pair.newDefault Pair.new Buf.from_
      rw [hv]
      rfl
    have hst : StatMap.streamStat A ([] : StatMap E Q) q ⟨s, .val s.ty s.sv.default⟩ =
        .ok ⟨s, .val s.ty s.sv.default⟩ := rfl
    unfold StatMap.queryStat
    rw [hn]
    change (StatMap.streamStat A ([] : StatMap E Q) q ⟨s, .val s.ty s.sv.default⟩ >>= fun p => p.value.read s.ty) = _
    rw [hst]
    change (Buf.val s.ty s.sv.default : Buf E).read s.ty = _
    unfold Buf.read
    rw [hv]
    change (Buf.val s.ty s.sv.default : Buf E).get s.ty = _
    simp [Buf.get]

/-- What is lost: a map in which a stat is worth `6 * 2`, spawned from a scene, has it worth 0. -/
theorem C130_lost : ∃ m w', StatMap.run demoAddr demoSavedOps = .ok m ∧
    StatMap.evalStat demoAddr m demoQ (demoInt 0) = .ok (12 : Int) ∧
    (StatMap.reflect demo (BitVec 8) F).copy (fun e => if e = 0 then some m else none) (fun _ => none) 0 10 = .ok w' ∧
    ∃ m', w' 10 = some m' ∧ StatMap.evalStat demoAddr m' demoQ (demoInt 0) = .ok (0 : Int) :=
  ⟨_, _, rfl, rfl, rfl, _, rfl, rfl⟩

/-! ### concrete cases -/

/-- C130: a query of one variant, applied to one of the other -/
example : QualifierQuery.apply (.aggregate 3 : QualifierQuery (BitVec 8)) (QualifierQuery.exact 1 2).show_ =
    some (.exact 1 2) := by decide

/-- C130: a map with an entry, for `C130_not_faithful` -/
example : ∃ m, StatMap.run demoAddr demoSavedOps = .ok m ∧ m ≠ [] := ⟨_, rfl, fun h => by cases h⟩

/-- C130: inserting something that is no struct, and copying from an entity without a map -/
example : (StatMap.reflect demo (BitVec 8) Nat).insert (fun _ : Nat => none) 0 (.leaf 3) = .error .panic ∧
    (StatMap.reflect demo (BitVec 8) Nat).copy (fun _ : Nat => none) (fun _ => none) 0 1 = .error .panic := ⟨rfl, rfl⟩

/-- C130: a struct that lacks a field is refused for a qualifier, and one with other fields accepted for a map -/
example : (Qualifier.reflect (BitVec 8)).fromReflect (.struct [("any_of", 1)]) = none ∧
    (StatMap.reflect demo (BitVec 8) (BitVec 8)).fromReflect (.struct [("inner", 1)]) = some [] := ⟨rfl, rfl⟩

end BSQ
