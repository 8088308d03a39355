import Verif.Model.Layout
import Verif.Proofs.StatMap
import Verif.Spec.Demo
import Mathlib.Data.List.Permutation
/-!
# C34: storage limits
-/
namespace BSQ
open Layout

/-- what the 24-byte, 8-aligned buffer needs of a type: it fits, wherever an 8-aligned buffer lies -/
def FitsBuffer (l : Layout) : Prop := l.size ≤ 24 ∧ ∀ addr, 8 ∣ addr → l.align ∣ addr

/-- C34: `Storable` is exactly what a 24-byte buffer at an 8-aligned address can hold -/
theorem C34_storable_iff_fits (l : Layout) : Storable l ↔ FitsBuffer l := by
  unfold Storable FitsBuffer
  constructor
  · rintro ⟨h, hs⟩
    refine ⟨hs, fun addr ha => Nat.dvd_trans ?_ ha⟩
    rcases h with h | h | h | h <;> rw [h] <;> decide
  · rintro ⟨hs, h⟩
    refine ⟨?_, hs⟩
    have h8 := h 8 (Nat.dvd_refl 8)
    have hle := Nat.le_of_dvd (by decide) h8
    generalize l.align = a at h8 hle ⊢
    have : ∀ a ≤ 8, a ∣ 8 → (a = 1 ∨ a = 2 ∨ a = 4 ∨ a = 8) := by decide
    exact this a hle h8

/-- C34: the runtime check accepts exactly the storable layouts and panics otherwise -/
theorem C34_validate (l : Layout) :
    (validate l = .ok () ↔ Storable l) ∧ (validate l = .error .panic ↔ ¬ Storable l) := by
  rw [validate_eq]
  by_cases h : Storable l <;> simp [h]

section uses
variable {E : Env} {Q : Type} [Ord Q] (A : Addr E)

/-- C34: inserting into a `StatMap`, building a pair or creating a default for a query succeeds iff the
value type is storable -/
theorem C34_store_iff (m : StatMap E Q) (q : Qualifier Q) (s : StatInst E) (v : s.Val) :
    ((∃ m', StatMap.insert A m q s v = .ok m') ↔ Storable (E.layout s.ty)) ∧
    ((∃ p, Pair.new s v = .ok p) ↔ Storable (E.layout s.ty)) ∧
    ((∃ b, vtDefault s.vt = .ok b) ↔ Storable (E.layout s.ty)) := by
  refine ⟨?_, ?_, ?_⟩ <;>
  · by_cases h : Storable (E.layout s.ty) <;>
      simp [StatMap.insert, Pair.new, vtDefault, Buf.from_eq, h]
end uses

/-! ### the layouts of the crate's types -/

theorem roundUp_of_dvd {n a : Nat} (ha : 0 < a) (h : a ∣ n) : roundUp n a = n := by
  obtain ⟨k, rfl⟩ := h
  unfold roundUp
  have : (a * k + a - 1) / a = k := by
    rw [Nat.add_sub_assoc (by omega), Nat.mul_comm a k, Nat.add_comm, Nat.add_mul_div_right _ _ ha,
      Nat.div_eq_of_lt (by omega)]
    omega
  rw [this, Nat.mul_comm]

theorem le_roundUp {a : Nat} (n : Nat) (ha : 0 < a) : n ≤ roundUp n a := by
  unfold roundUp
  have h := Nat.div_add_mod (n + a - 1) a
  have h2 := Nat.mod_lt (n + a - 1) ha
  rw [Nat.mul_comm] at h
  omega

theorem roundUp_dvd (n a : Nat) : a ∣ roundUp n a := ⟨_, Nat.mul_comm _ _⟩

theorem place_ge (fs : List Layout) (h : ∀ f ∈ fs, 0 < f.align) (off : Nat) :
    off + (fs.map Layout.size).sum ≤ place off fs := by
  induction fs generalizing off with
  | nil => simp [place]
  | cons f fs ih =>
    have h1 := le_roundUp off (h f (by simp))
    have h2 := ih (fun g hg => h g (by simp [hg])) (roundUp off f.align + f.size)
    simp only [place, List.map_cons, List.sum_cons]
    omega

theorem maxAlign_pos (fs : List Layout) : 0 < maxAlign fs := by
  induction fs with
  | nil => simp [maxAlign]
  | cons f fs ih => simp only [maxAlign]; exact Nat.lt_of_lt_of_le ih (Nat.le_max_right _ _)

theorem maxAlign_ge (fs : List Layout) : ∀ f ∈ fs, f.align ≤ maxAlign fs := by
  induction fs with
  | nil => simp
  | cons g fs ih =>
    intro f hf
    simp only [maxAlign]
    rcases List.mem_cons.1 hf with rfl | hf
    · exact Nat.le_max_left _ _
    · exact Nat.le_trans (ih f hf) (Nat.le_max_right _ _)

/-- offsets at which a struct's fields lie -/
def offsets : Nat → List Layout → List Nat
  | _, [] => []
  | off, f :: fs => roundUp off f.align :: offsets (roundUp off f.align + f.size) fs

/-- what the layout of a struct must provide: every field is at a multiple of its alignment, fields do not
overlap, all lie within the size, the alignment suffices for every field and the size is a multiple of it -/
structure LaysOut (fs : List Layout) (offs : List Nat) (l : Layout) : Prop where
  length : offs.length = fs.length
  aligned : ∀ p ∈ fs.zip offs, p.1.align ∣ p.2
  disjoint : (fs.zip offs).Pairwise (fun p q => p.2 + p.1.size ≤ q.2)
  inside : ∀ p ∈ fs.zip offs, p.2 + p.1.size ≤ l.size
  align : ∀ f ∈ fs, f.align ≤ l.align
  size : l.align ∣ l.size

theorem offsets_spec (fs : List Layout) (h : ∀ f ∈ fs, 0 < f.align) (off : Nat) :
    (offsets off fs).length = fs.length ∧
    (∀ p ∈ fs.zip (offsets off fs), p.1.align ∣ p.2 ∧ off ≤ p.2 ∧ p.2 + p.1.size ≤ place off fs) ∧
    (fs.zip (offsets off fs)).Pairwise (fun p q => p.2 + p.1.size ≤ q.2) := by
  induction fs generalizing off with
  | nil => simp [offsets]
  | cons f fs ih =>
    have hf := le_roundUp off (h f (by simp))
    have hfs : ∀ g ∈ fs, 0 < g.align := fun g hg => h g (by simp [hg])
    obtain ⟨h1, h2, h3⟩ := ih hfs (roundUp off f.align + f.size)
    have hp := place_ge fs hfs (roundUp off f.align + f.size)
    refine ⟨by simp [offsets, h1], ?_, ?_⟩
    · intro p hp'
      simp only [offsets, List.zip_cons_cons, List.mem_cons] at hp'
      rcases hp' with rfl | hp'
      · exact ⟨roundUp_dvd _ _, hf, by simp only [place]; omega⟩
      · obtain ⟨a, b, c⟩ := h2 p hp'
        exact ⟨a, by omega, by simpa [place] using c⟩
    · simp only [offsets, List.zip_cons_cons, List.pairwise_cons]
      exact ⟨fun p hp' => (h2 p hp').2.1, h3⟩

/-- C34: the computed layout of a struct has room for all fields, aligned and disjoint -/
theorem C34_reprC_sound (a : Nat) (ha : 0 < a) (fs : List Layout) (h : ∀ f ∈ fs, 0 < f.align) :
    LaysOut fs (offsets 0 fs) (reprC a fs) := by
  obtain ⟨h1, h2, h3⟩ := offsets_spec fs h 0
  have hpos : 0 < Nat.max a (maxAlign fs) := Nat.lt_of_lt_of_le ha (Nat.le_max_left _ _)
  refine ⟨h1, fun p hp => (h2 p hp).1, h3, fun p hp => ?_, fun f hf => ?_, roundUp_dvd _ _⟩
  · exact Nat.le_trans (h2 p hp).2.2 (le_roundUp _ hpos)
  · exact Nat.le_trans (maxAlign_ge fs f hf) (Nat.le_max_right _ _)

/-- C34: no struct is smaller than its fields together -/
theorem C34_struct_at_least (a : Nat) (ha : 0 < a) (fs : List Layout) (h : ∀ f ∈ fs, 0 < f.align) :
    (fs.map Layout.size).sum ≤ (reprC a fs).size := by
  have h1 := place_ge fs h 0
  exact Nat.le_trans (by omega) (le_roundUp _ (Nat.lt_of_lt_of_le ha (Nat.le_max_left _ _)))

/-- widths of the primitive numbers -/
def IsWidth (n : Nat) : Prop := n = 1 ∨ n = 2 ∨ n = 4 ∨ n = 8 ∨ n = 16

/-- C34: which number types can be used: `StatInt`, `StatIntPercentAdditive`, `StatIntFraction` and
`StatIntPercent` need numbers of at most 4 bytes, `StatFlags` of at most 8 -/
theorem C34_types_storable (n : Nat) (hn : IsWidth n) :
    (Storable (Layout.statInt n) ↔ n ≤ 4) ∧
    (Storable (Layout.statIntPercentAdditive n) ↔ n ≤ 4) ∧
    (Storable (Layout.statIntFraction n) ↔ n ≤ 4) ∧
    (Storable (Layout.statIntPercent n) ↔ n ≤ 4) ∧
    (Storable (Layout.statFlags (prim n)) ↔ n ≤ 8) := by
  unfold IsWidth at hn
  rcases hn with rfl | rfl | rfl | rfl | rfl <;> decide

/-- C34: `StatFloat` and `StatFloatAdditive` can be stored with `f32` but not `f64`, and with fractions of at
most 16 bits; `StatMult` also with `f64` and fractions of 32 bits -/
theorem C34_float_storable :
    (∀ n, n = 4 ∨ n = 8 → ((Storable (Layout.statFloat (prim n)) ↔ n = 4) ∧ Storable (Layout.statMult (prim n)))) ∧
    (∀ n, IsWidth n → ((Storable (Layout.statFloat (fraction n)) ↔ n ≤ 2) ∧
      (Storable (Layout.statMult (fraction n)) ↔ n ≤ 4))) := by
  constructor
  · rintro n (rfl | rfl) <;> decide
  · intro n hn
    unfold IsWidth at hn
    rcases hn with rfl | rfl | rfl | rfl | rfl <;> decide

/-- C34: `StatExists` can be stored: with its alignment of 8 it takes 8 bytes -/
theorem C34_statExists_storable : Storable Layout.statExists ∧ Layout.statExists = ⟨8, 8⟩ := by decide

/-- C34: `StatIntFloatMul` is storable iff the integer takes at most 4 bytes, with either float type -/
theorem C34_statIntFloatMul_storable (n f : Nat) (hn : IsWidth n) (hf : f = 4 ∨ f = 8) :
    Storable (Layout.statIntFloatMul n f) ↔ n ≤ 4 := by
  unfold IsWidth at hn
  rcases hn with rfl | rfl | rfl | rfl | rfl <;> rcases hf with rfl | rfl <;> decide

/-- layout of a Rust type: a power of two alignment that divides the size -/
structure Layout.Ok (l : Layout) : Prop where
  dvd : l.align ∣ l.size
  pow : ∃ k, l.align = 2 ^ k

theorem Layout.Ok.cases {l : Layout} (h : l.Ok) :
    l.align = 1 ∨ l.align = 2 ∨ l.align = 4 ∨ l.align = 8 ∨ 16 ∣ l.align := by
  obtain ⟨k, hk⟩ := h.pow
  rw [hk]
  match k with
  | 0 => simp
  | 1 => simp
  | 2 => simp
  | 3 => simp
  | k + 4 => exact .inr (.inr (.inr (.inr ⟨2 ^ k, by rw [Nat.pow_add]; omega⟩)))

theorem roundUp_small (n a : Nat) (h : a = 1 ∨ a = 2 ∨ a = 4 ∨ a = 8) :
    n ≤ roundUp n a ∧ roundUp n a < n + a ∧ a ∣ roundUp n a := by
  have ha : 0 < a := by omega
  refine ⟨le_roundUp n ha, ?_, roundUp_dvd n a⟩
  unfold roundUp
  have := Nat.div_mul_le_self (n + a - 1) a
  omega

/-- C34: flags of any type: storable iff aligned to at most 8 and at most 12 bytes long -/
theorem C34_statFlags_storable (f : Layout) (hf : f.Ok) :
    Storable (Layout.statFlags f) ↔ f.align ≤ 8 ∧ f.size ≤ 12 := by
  have hd := hf.dvd
  rcases hf.cases with h | h | h | h | h
  all_goals try
    (have h0 := roundUp_of_dvd (n := 0) (a := f.align) (by omega) (Nat.dvd_zero _)
     have h1 := roundUp_of_dvd (n := f.size) (a := f.align) (by omega) hd
     have h2 := roundUp_small (f.size + f.size) 8 (by omega)
     simp only [Storable, Layout.statFlags, reprC, place, maxAlign, h0, Nat.zero_add, h1]
     rw [h]
     simp
     omega)
  · have hpos : 0 < f.align := by obtain ⟨k, hk⟩ := hf.pow; rw [hk]; exact Nat.pow_pos (by decide)
    have h16 := Nat.le_of_dvd hpos h
    simp only [Storable, Layout.statFlags, reprC, maxAlign]
    have : Nat.max 8 (Nat.max f.align (Nat.max f.align 1)) = f.align := by
      simp only [Nat.max_def]; split_ifs <;> omega
    rw [this]
    omega

/-- C34: `StatOnce<T>` is storable iff `T` is aligned to at most 8 and, rounded up to a multiple of its
alignment after the 4 bytes of the discriminant, ends within the 24 bytes: 20 bytes when aligned to at most 4,
16 bytes (`Box<str>`, but not `String`) when aligned to 8 -/
theorem C34_statOnce_storable (f : Layout) (hf : f.Ok) :
    Storable (Layout.statOnce f) ↔ (f.align ≤ 4 ∧ f.size ≤ 20) ∨ (f.align = 8 ∧ f.size ≤ 16) := by
  have hd := hf.dvd
  rcases hf.cases with h | h | h | h | h
  all_goals try
    (have h0 : roundUp 0 4 = 0 := rfl
     have h1 : roundUp 4 f.align = if f.align = 8 then 8 else 4 := by rw [h]; rfl
     have h2 := roundUp_small ((if f.align = 8 then 8 else 4) + f.size) 8 (by omega)
     simp only [Storable, Layout.statOnce, reprC, place, maxAlign, prim, h0, Nat.zero_add, h1]
     rw [h] at h2 hd ⊢
     simp at h2 ⊢
     omega)
  · have hpos : 0 < f.align := by obtain ⟨k, hk⟩ := hf.pow; rw [hk]; exact Nat.pow_pos (by decide)
    have h16 := Nat.le_of_dvd hpos h
    simp only [Storable, Layout.statOnce, reprC, maxAlign, prim]
    have : Nat.max 8 (Nat.max 4 (Nat.max f.align 1)) = f.align := by
      simp only [Nat.max_def]; split_ifs <;> omega
    rw [this]
    omega

/-- C34: `Prioritized<T>` is storable iff `T` is aligned to at most 8 and at most 20 bytes long -/
theorem C34_prioritized_storable (f : Layout) (hf : f.Ok) :
    Storable (Layout.prioritized f) ↔ f.align ≤ 8 ∧ f.size ≤ 20 := by
  have hd := hf.dvd
  rcases hf.cases with h | h | h | h | h
  all_goals try
    (have h0 := roundUp_of_dvd (n := 0) (a := f.align) (by omega) (Nat.dvd_zero _)
     have h1 := roundUp_small f.size 4 (by omega)
     have h2 := roundUp_small (roundUp f.size 4 + 4) (Nat.max 1 (Nat.max f.align (Nat.max 4 1)))
       (by rw [h]; decide)
     simp only [Storable, Layout.prioritized, reprC, place, maxAlign, prim, h0, Nat.zero_add]
     rw [h] at h2 hd ⊢
     simp at h1 h2 ⊢
     omega)
  · have hpos : 0 < f.align := by obtain ⟨k, hk⟩ := hf.pow; rw [hk]; exact Nat.pow_pos (by decide)
    have h16 := Nat.le_of_dvd hpos h
    simp only [Storable, Layout.prioritized, reprC, maxAlign, prim]
    have : Nat.max 1 (Nat.max f.align (Nat.max 4 1)) = f.align := by
      simp only [Nat.max_def]; split_ifs <;> omega
    rw [this]
    omega

/-- C34: concrete types.  `StatOnce<Box<str>>` fits, `StatOnce<String>` never does; `StatExists` fits. -/
example : Storable (Layout.statOnce ⟨16, 8⟩) ∧ ¬ Storable (Layout.statOnce ⟨24, 8⟩) ∧ Storable Layout.statExists ∧
    ¬ Storable (Layout.statInt 8) ∧ ¬ Storable (Layout.statFloat (prim 8)) ∧ Storable (Layout.statIntFloatMul 4 8) := by decide
/-- the concrete program uses the layouts computed here -/
example : demo.layout true = Layout.statInt 4 ∧ demo.layout false = Layout.statFlags (prim 1) := by decide

end BSQ
