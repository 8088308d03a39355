import Verif.Model.HMap
/-!
# Hash map lemmas
-/
namespace BSQ.HMap
variable {K B : Type} {eq : K → K → Bool}

theorem get_nil (k : K) : get (B := B) eq [] k = none := rfl

theorem get_cons (x : K × B) (m : HMap K B) (k : K) :
    get eq (x :: m) k = if eq x.1 k then some x.2 else get eq m k := by
  unfold get
  rw [List.find?_cons]
  by_cases h : eq x.1 k = true <;> simp [h]

theorem insert_old (m : HMap K B) (k : K) (b : B) : (insert eq m k b).2 = get eq m k := by
  unfold insert
  cases h : get eq m k <;> rfl

variable [DecidableEq K] (heq : ∀ a b, eq a b = true ↔ a = b)
include heq

theorem get_append (m : HMap K B) (k j : K) (b : B) :
    get eq (m ++ [(k, b)]) j = (get eq m j).or (if k = j then some b else none) := by
  induction m with
  | nil =>
    rw [List.nil_append, get_cons, get_nil]
    by_cases h : k = j <;> simp [heq, h]
  | cons x m ih =>
    rw [List.cons_append, get_cons, get_cons, ih]
    by_cases h : eq x.1 j = true <;> simp [h]

theorem get_set (m : HMap K B) (k j : K) (b : B) :
    get eq (set eq m k b) j = if k = j then (get eq m k).map (fun _ => b) else get eq m j := by
  induction m with
  | nil => simp [set, get_nil]
  | cons x m ih =>
    unfold set at ih ⊢
    rw [List.map_cons, get_cons, get_cons, get_cons, ih]
    by_cases h1 : x.1 = k <;> by_cases h2 : k = j
    · subst h1; subst h2; simp [heq]
    · subst h1; simp [heq, h2]
    · subst h2; simp [heq, h1]
    · have e : (eq x.1 k) = false := by rw [← Bool.not_eq_true, heq]; exact h1
      simp [e, h2]

theorem get_insert (m : HMap K B) (k j : K) (b : B) :
    get eq (insert eq m k b).1 j = if k = j then some b else get eq m j := by
  unfold insert
  cases h : get eq m k with
  | none =>
    simp only
    rw [get_append heq]
    by_cases hkj : k = j
    · subst hkj; simp [h]
    · simp [hkj]
  | some old =>
    simp only
    rw [get_set heq, h]
    rfl

omit [DecidableEq K] in
theorem mem_of_get {m : HMap K B} {k : K} {b : B} (h : get eq m k = some b) : (k, b) ∈ m := by
  unfold get at h
  simp only [Option.map_eq_some_iff] at h
  obtain ⟨x, hx, rfl⟩ := h
  have h1 := List.find?_some hx
  simp only [heq] at h1
  subst h1
  exact List.mem_of_find?_eq_some hx

end BSQ.HMap

namespace BSQ.HMap
variable {K B : Type} {eq : K → K → Bool}

theorem mem_insert (heq : ∀ a b, eq a b = true ↔ a = b) {m : HMap K B} {k : K} {b : B} {x : K × B}
    (h : x ∈ (insert eq m k b).1) : x ∈ m ∨ x = (k, b) := by
  unfold insert at h
  cases hg : get eq m k with
  | none =>
    rw [hg] at h
    simpa using h
  | some old =>
    rw [hg] at h
    simp only [set, List.mem_map] at h
    obtain ⟨y, hy, rfl⟩ := h
    by_cases hk : eq y.1 k = true
    · right
      simp only [hk, if_true]
      rw [(heq _ _).1 hk]
    · left
      simpa [hk] using hy

end BSQ.HMap
