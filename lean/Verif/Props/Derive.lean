import Verif.Spec.Derive
import Mathlib.Data.List.Nodup
/-!
# C39, C40: derived stats
-/
namespace BSQ
open Derive

/-! ### helpers -/

theorem mem_takeWhile_imp' {α : Type} (p : α → Bool) (l : List α) (x : α) (h : x ∈ l.takeWhile p) :
    p x = true := by
  induction l with
  | nil => simp at h
  | cons a l ih =>
    rw [List.takeWhile_cons] at h
    split at h
    · rcases List.mem_cons.1 h with rfl | h
      · assumption
      · exact ih h
    · simp at h

theorem takeWhile_all {α : Type} (p : α → Bool) (l : List α) (h : ∀ x ∈ l, p x = true) :
    l.takeWhile p = l := by
  induction l with
  | nil => rfl
  | cons a l ih =>
    rw [List.takeWhile_cons, if_pos (h a (by simp)), ih (fun x hx => h x (by simp [hx]))]

theorem leading_split (vs : List Variant) :
    ∃ pre rest, vs = pre ++ rest ∧ pre.length = leading vs ∧ (∀ v ∈ pre, v.disc = .none) ∧
      (∀ v ∈ rest.head?, v.disc ≠ .none) := by
  refine ⟨vs.takeWhile (fun v => v.disc == .none), vs.dropWhile (fun v => v.disc == .none),
    (List.takeWhile_append_dropWhile).symm, rfl, ?_, ?_⟩
  · intro v hv
    simpa using mem_takeWhile_imp' _ vs v hv
  · intro v hv
    have := List.head?_dropWhile_not (fun v : Variant => v.disc == .none) vs
    rw [Option.mem_def.1 hv] at this
    simpa using this

/-- after an explicit discriminant the macro agrees with the compiler -/
theorem indicesFrom_eq_rust (vs : List Variant) (hl : ∀ v ∈ vs, v.disc ≠ .other) (n : Nat)
    (hr : ∀ x ∈ rustDiscsFrom (n + 1) vs, x < 2 ^ 64) :
    indicesFrom n vs = some (rustDiscsFrom (n + 1) vs) := by
  induction vs generalizing n with
  | nil => rfl
  | cons v vs ih =>
    have hv := hl v (by simp)
    have ih' := ih (fun w hw => hl w (by simp [hw]))
    unfold indicesFrom rustDiscsFrom
    unfold rustDiscsFrom at hr
    cases hd : v.disc with
    | none =>
      simp only [hd, List.mem_cons, forall_eq_or_imp] at hr
      simp [ih' (n + 1) hr.2]
    | lit m =>
      simp only [hd, List.mem_cons, forall_eq_or_imp] at hr
      simp [ih' m hr.2, hr.1]
    | other => exact absurd hd hv

theorem rustDiscs_leading (pre rest : List Variant) (h : ∀ v ∈ pre, v.disc = .none) (n : Nat) :
    rustDiscsFrom n (pre ++ rest) = List.range' n pre.length ++ rustDiscsFrom (n + pre.length) rest := by
  induction pre generalizing n with
  | nil => simp
  | cons v pre ih =>
    rw [List.cons_append, rustDiscsFrom, h v (by simp)]
    simp only [List.length_cons, List.range'_succ, List.cons_append]
    rw [ih (fun w hw => h w (by simp [hw])), show n + 1 + pre.length = n + (pre.length + 1) by omega]

theorem rustDiscs_head (rest : List Variant) (hl : ∀ v ∈ rest, v.disc ≠ .other)
    (h : ∀ v ∈ rest.head?, v.disc ≠ .none) (a b : Nat) : rustDiscsFrom a rest = rustDiscsFrom b rest := by
  cases rest with
  | nil => rfl
  | cons v vs =>
    unfold rustDiscsFrom
    cases hd : v.disc with
    | none => exact absurd hd (h v (by simp))
    | lit m => rfl
    | other => exact absurd hd (hl v (by simp))

theorem indices_leading (pre rest : List Variant) (h : ∀ v ∈ pre, v.disc = .none) (n : Nat) :
    indicesFrom n (pre ++ rest) =
      (indicesFrom (n + pre.length) rest).map (List.range' (n + 1) pre.length ++ ·) := by
  induction pre generalizing n with
  | nil => simp
  | cons v pre ih =>
    rw [List.cons_append, indicesFrom, h v (by simp)]
    simp only [List.length_cons, List.range'_succ, List.cons_append]
    rw [ih (fun w hw => h w (by simp [hw])), show n + 1 + pre.length = n + (pre.length + 1) by omega]
    cases indicesFrom (n + (pre.length + 1)) rest <;> simp

/-- compiler's and macro's numbering of an accepted enum: they only differ on the leading variants without
discriminant, which the compiler numbers from 0 and the macro from 1 -/
theorem C39_numbering (vs : List Variant) (h : Accepted vs) :
    ∃ R, rustDiscsFrom 0 vs = List.range' 0 (leading vs) ++ R ∧
      indicesFrom 0 vs = some (List.range' 1 (leading vs) ++ R) := by
  obtain ⟨pre, rest, rfl, hk, hpre, hrest⟩ := leading_split vs
  have hlr : ∀ v ∈ rest, v.disc ≠ .other := fun v hv => h.literal v (by simp [hv])
  have hr := h.range
  have e1 : rustDiscsFrom 0 (pre ++ rest) =
      List.range' 0 (leading (pre ++ rest)) ++ rustDiscsFrom (pre.length + 1) rest := by
    rw [rustDiscs_leading pre rest hpre 0, ← hk,
      rustDiscs_head rest hlr hrest (0 + pre.length) (pre.length + 1)]
  refine ⟨_, e1, ?_⟩
  rw [indices_leading pre rest hpre 0, indicesFrom_eq_rust rest hlr]
  · rw [← hk, Nat.zero_add, Nat.zero_add]; rfl
  · intro x hx
    refine hr x ?_
    rw [e1]
    simp only [List.mem_append]
    right
    rwa [rustDiscs_head rest hlr hrest (pre.length + 1) (0 + pre.length + 1)]

theorem enum_some {vs : List Variant} (h : Accepted vs) :
    ∃ is, indicesFrom 0 vs = some is ∧ is.length = vs.length ∧
      enum vs = some ⟨vs.map (·.ident), is, defaultFrom 0 vs none⟩ := by
  obtain ⟨R, _, hi⟩ := C39_numbering vs h
  refine ⟨_, hi, ?_, ?_⟩
  · have : ∀ (vs : List Variant) n is, indicesFrom n vs = some is → is.length = vs.length := by
      intro vs
      induction vs with
      | nil => intro n is h; simp [indicesFrom] at h; simp [h]
      | cons v vs ih =>
        intro n is h
        unfold indicesFrom at h
        cases hd : v.disc with
        | none =>
          simp only [hd, Option.map_eq_some_iff] at h
          obtain ⟨a, ha, rfl⟩ := h
          simp [ih _ _ ha]
        | lit m =>
          simp only [hd] at h
          split at h
          · simp only [Option.map_eq_some_iff] at h
            obtain ⟨a, ha, rfl⟩ := h
            simp [ih _ _ ha]
          · cases h
        | other => simp [hd] at h
    exact this vs 0 _ hi
  · have : vs.all (·.isUnit) = true := by simpa using h.unit
    simp [enum, this, hi]

/-! ### C39 -/

/-- C39: in any generated code, from_index undoes as_index for each variant exactly when the macro's indices are all different -/
theorem C39_roundtrip_iff (d : Impl) :
    (∀ i n, d.asIndex i = some n → d.fromIndex n = .ok i) ↔ d.indices.Nodup := by
  unfold Impl.asIndex Impl.fromIndex
  constructor
  · intro h
    rw [List.nodup_iff_getElem?_ne_getElem?]
    intro i j hij hj he
    obtain ⟨n, hn⟩ : ∃ n, d.indices[j]? = some n := ⟨_, List.getElem?_eq_getElem hj⟩
    have h1 := h j n hn
    have h2 := h i n (he.trans hn)
    rw [h1] at h2
    simp only [Except.ok.injEq] at h2
    omega
  · intro h i n hi
    have : d.indices.findIdx? (· == n) = some i := by
      rw [List.findIdx?_eq_some_iff_getElem]
      obtain ⟨hlt, hv⟩ := List.getElem?_eq_some_iff.1 hi
      refine ⟨hlt, by simp [hv], ?_⟩
      intro j hj
      have hne := List.nodup_iff_getElem?_ne_getElem?.1 h j i hj hlt
      rw [List.getElem?_eq_getElem (by omega), List.getElem?_eq_getElem hlt] at hne
      simp only [ne_eq, Option.some.injEq] at hne
      rw [hv] at hne
      simpa using hne
    simp [this]

/-- C39: for an accepted enum the indices are all different iff there is no variant without discriminant at
the front, or no later variant has the number of such front variants as its discriminant -/
theorem C39_distinct_iff (vs : List Variant) (h : Accepted vs) (d : Impl) (hd : enum vs = some d) :
    d.indices.Nodup ↔ (leading vs = 0 ∨ leading vs ∉ rustDiscsFrom 0 vs) := by
  obtain ⟨R, hr, hi⟩ := C39_numbering vs h
  obtain ⟨is, hi', _, he⟩ := enum_some h
  rw [hd] at he
  simp only [Option.some.injEq] at he
  rw [hi] at hi'
  simp only [Option.some.injEq] at hi'
  rw [he, ← hi']
  have hnd := h.discs
  rw [hr] at hnd ⊢
  rw [List.nodup_append] at hnd ⊢
  obtain ⟨_, h2, h3⟩ := hnd
  simp only [List.mem_append, List.mem_range'_1, not_or] at *
  constructor
  · rintro ⟨_, _, h6⟩
    by_cases h0 : leading vs = 0
    · exact .inl h0
    · exact .inr ⟨by omega, fun hm => h6 (leading vs) ⟨by omega, by omega⟩ _ hm rfl⟩
  · intro hcase
    refine ⟨List.nodup_range', h2, ?_⟩
    intro a ha b hb hab
    subst hab
    by_cases hak : a = leading vs
    · subst hak
      rcases hcase with h0 | ⟨_, h0⟩
      · omega
      · exact h0 hb
    · exact h3 a ⟨by omega, by omega⟩ a hb rfl

/-- C39, partial: derived conversion is lossless and different variants are different stats, for each
accepted enum in which no later variant's discriminant equals the number of leading variants without one.
Missing: that last condition should not be needed (`C39_refuted_collision`). -/
theorem C39_lossless_partial (vs : List Variant) (h : Accepted vs)
    (hc : leading vs = 0 ∨ leading vs ∉ rustDiscsFrom 0 vs) :
    ∃ d, enum vs = some d ∧
      (∀ i, i < vs.length → ∃ n, d.asIndex i = some n ∧ d.fromIndex n = .ok i) ∧
      (∀ i j, i < vs.length → j < vs.length → d.asIndex i = d.asIndex j → i = j) := by
  obtain ⟨is, _, hlen, he⟩ := enum_some h
  have hnd := (C39_distinct_iff vs h _ he).2 hc
  have hrt := (C39_roundtrip_iff _).2 hnd
  refine ⟨_, he, ?_, ?_⟩
  · intro i hi
    have : i < is.length := by omega
    exact ⟨is[i], List.getElem?_eq_getElem this, hrt i _ (List.getElem?_eq_getElem this)⟩
  · intro i j hi hj hij
    have h1 : i < is.length := by omega
    have h2 := hrt i _ (List.getElem?_eq_getElem h1)
    have h3 := hrt j is[i] (hij.symm.trans (List.getElem?_eq_getElem h1))
    rw [h2] at h3
    simpa using h3

/-- C39: enums without any discriminant, and enums whose first variant has one, always qualify -/
theorem C39_common_cases (vs : List Variant) (h : Accepted vs)
    (hc : (∀ v ∈ vs, v.disc = .none) ∨ (∀ v ∈ vs.head?, v.disc ≠ .none)) :
    leading vs = 0 ∨ leading vs ∉ rustDiscsFrom 0 vs := by
  rcases hc with hc | hc
  · right
    have e := rustDiscs_leading vs [] hc 0
    rw [List.append_nil] at e
    have hl : leading vs = vs.length := by
      unfold leading
      rw [takeWhile_all _ vs (by simpa using hc)]
    rw [e, hl]
    simp [rustDiscsFrom, List.mem_range'_1]
  · left
    unfold leading
    cases vs with
    | nil => rfl
    | cons v vs =>
      have : (v.disc == .none) = false := by simpa using hc v (by simp)
      simp [List.takeWhile, this]

/-- C39 does not hold in general: `enum { A, B = 1 }` is accepted by compiler and macro, but both variants
get index 1, so `B` converts to `A` and they are the same stat. -/
theorem C39_refuted_collision :
    ∃ vs d, Accepted vs ∧ enum vs = some d ∧ d.asIndex 0 = some 1 ∧ d.asIndex 1 = some 1 ∧
      d.fromIndex 1 = .ok 0 :=
  ⟨[⟨"A", .none, false, true⟩, ⟨"B", .lit 1, false, true⟩], ⟨["A", "B"], [1, 1], none⟩,
    ⟨by decide, by decide, by decide, by decide, by decide⟩, by decide, rfl, rfl, rfl⟩

/-- accepted enums of both kinds exist: `{ A, B, C }` and `{ A = 3, B, C = 1 }` -/
example : Accepted [⟨"A", .none, true, true⟩, ⟨"B", .none, false, true⟩, ⟨"C", .none, false, true⟩] :=
  ⟨by decide, by decide, by decide, by decide, by decide⟩
example : Accepted [⟨"A", .lit 3, true, true⟩, ⟨"B", .none, false, true⟩, ⟨"C", .lit 1, false, true⟩] :=
  ⟨by decide, by decide, by decide, by decide, by decide⟩

/-! ### C40 -/

theorem indicesFrom_isSome (last : Nat) (vs : List Variant) :
    (indicesFrom last vs).isSome ↔ ∀ v ∈ vs, v.disc = .none ∨ ∃ n, v.disc = .lit n ∧ n < 2 ^ 64 := by
  induction vs generalizing last with
  | nil => simp [indicesFrom]
  | cons v vs ih =>
    cases hv : v.disc with
    | none => simp [indicesFrom, hv, ih]
    | lit n =>
      by_cases hn : n < 2 ^ 64
      · simp [indicesFrom, hv, hn, ih]
      · simp [indicesFrom, hv, hn]
    | other => simp [indicesFrom, hv]

/-- C40: the macro accepts an enum exactly when no variant has fields and each discriminant written is an
integer literal that fits `u64`; anything else is a compile error -/
theorem C40_accepts_iff (vs : List Variant) :
    (∃ d, enum vs = some d) ↔
      ∀ v ∈ vs, v.isUnit = true ∧ (v.disc = .none ∨ ∃ n, v.disc = .lit n ∧ n < 2 ^ 64) := by
  unfold enum
  rw [show (∃ d, (if vs.all (·.isUnit) then
      (indicesFrom 0 vs).map (fun is => (⟨vs.map (·.ident), is, defaultFrom 0 vs none⟩ : Impl)) else none) = some d) ↔
      (vs.all (·.isUnit) = true ∧ (indicesFrom 0 vs).isSome) from by
    split <;> rename_i h <;> simp [h, Option.isSome_iff_exists]]
  rw [indicesFrom_isSome, List.all_eq_true]
  exact ⟨fun h v hv => ⟨h.1 v hv, h.2 v hv⟩, fun h => ⟨fun v hv => (h v hv).1, fun v hv => (h v hv).2⟩⟩

/-- all three kinds of rejection occur -/
example : enum [⟨"A", .none, false, true⟩, ⟨"B", .none, false, false⟩] = none ∧
    enum [⟨"A", .other, false, true⟩] = none ∧ enum [⟨"A", .lit (2 ^ 64), false, true⟩] = none := by decide

/-- C40: `values` lists each variant exactly once, in order, and `name` is its identifier; different variants
have different names -/
theorem C40_values_names (vs : List Variant) (h : Accepted vs) (d : Impl) (hd : enum vs = some d) :
    d.values.Nodup ∧ (∀ i, i ∈ d.values ↔ i < vs.length) ∧
    (∀ i v, vs[i]? = some v → d.name i = some v.ident) ∧
    (∀ i j n, d.name i = some n → d.name j = some n → i = j) := by
  obtain ⟨is, _, _, he⟩ := enum_some h
  rw [hd] at he
  simp only [Option.some.injEq] at he
  subst he
  refine ⟨List.nodup_range, ?_, ?_, ?_⟩
  · intro i; simp [Impl.values]
  · intro i v hv; simp [Impl.name, hv]
  · intro i j n hi hj
    unfold Impl.name at hi hj
    exact (List.getElem?_inj (List.getElem?_eq_some_iff.1 hi).1 h.idents) .. |>.1 (hi.trans hj.symm)

theorem defaultFrom_spec (vs : List Variant) (i : Nat) (d : Option Nat) :
    (∀ v ∈ vs, v.isDefault = false) ∧ defaultFrom i vs d = d ∨
    ∃ j v, vs[j]? = some v ∧ v.isDefault = true ∧ defaultFrom i vs d = some (i + j) ∧
      ∀ k w, vs[k]? = some w → w.isDefault = true → k ≤ j := by
  induction vs generalizing i d with
  | nil => left; simp [defaultFrom]
  | cons v vs ih =>
    rcases ih (i + 1) (if v.isDefault then some i else d) with ⟨h1, h2⟩ | ⟨j, w, h1, h2, h3, h4⟩
    · by_cases hv : v.isDefault = true
      · right
        refine ⟨0, v, rfl, hv, by rw [defaultFrom, h2]; simp [hv], ?_⟩
        intro k w hk hw
        cases k with
        | zero => exact Nat.le_refl 0
        | succ k =>
          have := h1 w (List.mem_of_getElem? hk)
          rw [this] at hw
          cases hw
      · left
        simp only [Bool.not_eq_true] at hv
        refine ⟨?_, by rw [defaultFrom, h2]; simp [hv]⟩
        intro w hw
        rcases List.mem_cons.1 hw with rfl | hw
        · exact hv
        · exact h1 w hw
    · right
      refine ⟨j + 1, w, h1, h2, by simp only [defaultFrom, h3]; congr 1; omega, ?_⟩
      intro k u hk hu
      cases k with
      | zero => omega
      | succ k => have := h4 k u hk hu; omega

/-- C40: an index no variant has converts to the (last) variant marked `#[default]`, and panics when there is
none -/
theorem C40_unknown_index (vs : List Variant) (d : Impl) (hd : enum vs = some d)
    (n : Nat) (hn : ∀ i, d.asIndex i ≠ some n) :
    (∀ j v, vs[j]? = some v → v.isDefault = true → (∀ k w, vs[k]? = some w → w.isDefault = true → k ≤ j) →
      d.fromIndex n = .ok j) ∧
    ((∀ v ∈ vs, v.isDefault = false) → d.fromIndex n = .error .panic) := by
  have hdd : d.default = defaultFrom 0 vs none := by
    unfold enum at hd
    split at hd
    · simp only [Option.map_eq_some_iff] at hd
      obtain ⟨_, _, rfl⟩ := hd
      rfl
    · cases hd
  have hf : d.indices.findIdx? (· == n) = none := by
    rw [List.findIdx?_eq_none_iff]
    intro x hx
    obtain ⟨i, hi, rfl⟩ := List.getElem_of_mem hx
    have := hn i
    unfold Impl.asIndex at this
    rw [List.getElem?_eq_getElem hi] at this
    simpa using this
  unfold Impl.fromIndex
  rw [hf, hdd]
  rcases defaultFrom_spec vs 0 none with ⟨h1, h2⟩ | ⟨j, w, h1, h2, h3, h4⟩
  · rw [h2]
    refine ⟨?_, fun _ => rfl⟩
    intro j v hv hvd
    have := h1 v (List.mem_of_getElem? hv)
    rw [this] at hvd
    cases hvd
  · rw [h3]
    refine ⟨?_, ?_⟩
    · intro j' v hv hvd hmax
      have a := hmax j w h1 h2
      have b := h4 j' v hv hvd
      simp only [Except.ok.injEq]
      omega
    · intro hno
      have := hno w (List.mem_of_getElem? h1)
      rw [this] at h2
      cases h2

/-- C40: a unit struct is a single stat named after the struct; every index converts to it -/
theorem C40_unit_struct (ident : String) :
    (unitStruct ident).values = [0] ∧ (unitStruct ident).name 0 = some ident ∧
    (unitStruct ident).asIndex 0 = some 0 ∧ ∀ n, (unitStruct ident).fromIndex n = .ok 0 := by
  refine ⟨rfl, rfl, rfl, ?_⟩
  intro n
  simp only [unitStruct, Impl.fromIndex, List.findIdx?_cons, List.findIdx?_nil]
  by_cases h : (0 == n) = true <;> simp [h]

/-- unknown indices occur: `{ A, #[default] B }` has no index 7 -/
example : ∃ d, enum [⟨"A", .none, false, true⟩, ⟨"B", .none, true, true⟩] = some d ∧
    (∀ i, d.asIndex i ≠ some 7) ∧ d.fromIndex 7 = .ok 1 := by
  refine ⟨⟨["A", "B"], [1, 2], some 1⟩, by decide, ?_, rfl⟩
  intro i
  unfold Impl.asIndex
  match i with
  | 0 => simp
  | 1 => simp
  | i + 2 => simp

end BSQ
