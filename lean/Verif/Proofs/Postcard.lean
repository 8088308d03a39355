import Verif.Spec.Postcard
import Mathlib.Tactic.Ring
import Mathlib.Tactic.Linarith
import Mathlib.Tactic.SplitIfs
/-!
# Bytes of numbers, strings and tuples
-/
namespace BSQ
namespace Postcard

/-! ### numbers -/

theorem getVar_putVar (last : Nat) (hl : last < 128) :
    ∀ (k n : Nat) (r : List UInt8), n < 128 ^ k * (last + 1) →
      getVar last (k + 1) (putVar (k + 1) n ++ r) = some (n, r)
  | k, n, r, h => by
    by_cases hn : n < 128
    · have h1 : (UInt8.ofNat n).toNat = n := by simp; omega
      rw [putVar, if_pos hn]
      simp only [List.cons_append, List.nil_append, getVar, h1, if_pos hn]
      rw [if_neg]
      rintro ⟨rfl, h2⟩
      simp at h; omega
    · have h1 : (UInt8.ofNat (n % 128 + 128)).toNat = n % 128 + 128 := by simp; omega
      rw [putVar, if_neg hn]
      simp only [List.cons_append, getVar, h1]
      rw [if_neg (by omega)]
      match k, h with
      | 0, h => simp at h; omega
      | k + 1, h =>
        rw [getVar_putVar last hl k (n / 128) r]
        · simp only [Option.map_some, Option.some.injEq, Prod.mk.injEq, and_true]; omega
        · rw [Nat.div_lt_iff_lt_mul (by omega)]
          calc n < 128 ^ (k + 1) * (last + 1) := h
            _ = 128 ^ k * (last + 1) * 128 := by ring

theorem getVar_lt (last : Nat) : ∀ (k : Nat) (b : List UInt8) (n : Nat) (r : List UInt8),
    getVar last (k + 1) b = some (n, r) → n < 128 ^ k * (last + 1)
  | _, [], _, _, h => by simp [getVar] at h
  | k, x :: b, n, r, h => by
    simp only [getVar] at h
    split_ifs at h with h1 h2
    · simp only [Option.some.injEq, Prod.mk.injEq] at h
      rw [← h.1]
      match k with
      | 0 => simp at h2 ⊢; omega
      | k + 1 =>
        calc x.toNat < 128 * 1 := by omega
          _ ≤ 128 * (128 ^ k * (last + 1)) := Nat.mul_le_mul_left _ (Nat.one_le_iff_ne_zero.2 (by positivity))
          _ = 128 ^ (k + 1) * (last + 1) := by ring
    · match k with
      | 0 => simp [getVar] at h
      | k + 1 =>
        obtain ⟨⟨n', r'⟩, h3, h4⟩ := Option.map_eq_some_iff.1 h
        simp only [Prod.mk.injEq] at h4
        have := getVar_lt last k b n' r' h3
        have hx := x.toNat_lt
        rw [← h4.1]
        calc x.toNat - 128 + 128 * n' < 128 * (n' + 1) := by omega
          _ ≤ 128 * (128 ^ k * (last + 1)) := Nat.mul_le_mul_left _ this
          _ = 128 ^ (k + 1) * (last + 1) := by ring

theorem getVar_grows (last : Nat) : ∀ (k : Nat) (b : List UInt8) (n : Nat) (r t : List UInt8),
    getVar last k b = some (n, r) → getVar last k (b ++ t) = some (n, r ++ t)
  | 0, _, _, _, _, h => by simp [getVar] at h
  | _ + 1, [], _, _, _, h => by simp [getVar] at h
  | k + 1, x :: b, n, r, t, h => by
    simp only [getVar, List.cons_append] at h ⊢
    split_ifs at h ⊢ with h1 h2
    · simp only [Option.some.injEq, Prod.mk.injEq] at h
      simp [h.1, h.2]
    · obtain ⟨⟨n', r'⟩, h3, h4⟩ := Option.map_eq_some_iff.1 h
      simp only [Prod.mk.injEq] at h4
      rw [getVar_grows last k b n' r' t h3, ← h4.1, ← h4.2]
      rfl

theorem getVar_front (last : Nat) : ∀ (k : Nat) (b : List UInt8) (n : Nat) (r : List UInt8),
    getVar last k b = some (n, r) → ∃ u, u ≠ [] ∧ b = u ++ r
  | 0, _, _, _, h => by simp [getVar] at h
  | _ + 1, [], _, _, h => by simp [getVar] at h
  | k + 1, x :: b, n, r, h => by
    simp only [getVar] at h
    split_ifs at h with h1 h2
    · simp only [Option.some.injEq, Prod.mk.injEq] at h
      exact ⟨[x], by simp, by simp [h.2]⟩
    · obtain ⟨⟨n', r'⟩, h3, h4⟩ := Option.map_eq_some_iff.1 h
      simp only [Prod.mk.injEq] at h4
      obtain ⟨u, _, hu⟩ := getVar_front last k b n' r' h3
      exact ⟨x :: u, by simp, by rw [hu, h4.2]; rfl⟩

theorem wide_pow {n : Nat} (hn : n % 7 ≠ 0) :
    (n + 6) / 7 = n / 7 + 1 ∧ 128 ^ (n / 7) * (2 ^ (n % 7) - 1 + 1) = 2 ^ n ∧ 2 ^ (n % 7) - 1 < 128 := by
  refine ⟨by omega, ?_, ?_⟩
  · have : (2 ^ (n % 7) - 1 + 1 : ℕ) = 2 ^ (n % 7) := Nat.sub_add_cancel Nat.one_le_two_pow
    rw [this, show (128 : ℕ) = 2 ^ 7 from rfl, ← pow_mul, ← pow_add]
    congr 1; omega
  · have : 2 ^ (n % 7) ≤ 2 ^ 7 := Nat.pow_le_pow_right (by omega) (by omega)
    omega

theorem getNat_putNat {n x : Nat} (hn : n % 7 ≠ 0) (hx : x < 2 ^ n) (r : List UInt8) :
    getNat n (putNat n x ++ r) = some (x, r) := by
  obtain ⟨h1, h2, h3⟩ := wide_pow hn
  rw [getNat, putNat, h1]
  exact getVar_putVar _ h3 _ _ _ (by rw [h2]; exact hx)

theorem getNat_lt {n x : Nat} (hn : n % 7 ≠ 0) {b r : List UInt8} (h : getNat n b = some (x, r)) : x < 2 ^ n := by
  obtain ⟨h1, h2, _⟩ := wide_pow hn
  rw [getNat, h1] at h
  rw [← h2]
  exact getVar_lt _ _ _ _ _ h

theorem getNat_grows {n x : Nat} {b r : List UInt8} (t : List UInt8) (h : getNat n b = some (x, r)) :
    getNat n (b ++ t) = some (x, r ++ t) := getVar_grows _ _ _ _ _ _ h

theorem getNat_front {n x : Nat} {b r : List UInt8} (h : getNat n b = some (x, r)) : ∃ u, u ≠ [] ∧ b = u ++ r :=
  getVar_front _ _ _ _ _ h

/-! ### integers -/

theorem unzigzag_zigzag (i : Int) : unzigzag (zigzag i) = i := by
  unfold unzigzag zigzag
  split_ifs <;> omega

theorem zigzag_lt {k : Nat} (hk : 0 < k) (i : Int) :
    zigzag i < 2 ^ k ↔ -(2 ^ (k - 1) : Int) ≤ i ∧ i ≤ (2 ^ (k - 1) : Int) - 1 := by
  obtain ⟨k, rfl⟩ : ∃ j, k = j + 1 := ⟨k - 1, by omega⟩
  have e : ((2 ^ (k + 1) : ℕ) : ℤ) = 2 * 2 ^ k := by push_cast; ring
  simp only [Nat.add_sub_cancel]
  generalize (2 : ℤ) ^ k = P at *
  unfold zigzag
  split_ifs <;> omega

theorem zigzag_unzigzag (n : Nat) : zigzag (unzigzag n) = n := by
  unfold unzigzag zigzag
  split_ifs <;> omega

theorem width_ok {n : Nat} (h : Width n) : n % 7 ≠ 0 ∧ 0 < n := by
  unfold Width at h; omega

theorem getInt_eight (s : Bool) (b : List UInt8) : getInt ⟨8, s⟩ b =
    match b with
    | [] => none
    | x :: r => some (if s = true ∧ 128 ≤ x.toNat then (x.toNat : Int) - 256 else x.toNat, r) := by
  cases b <;> simp [getInt]

theorem getInt_wide {n : Nat} (h : n ≠ 8) (s : Bool) (b : List UInt8) : getInt ⟨n, s⟩ b =
    (getNat n b).map fun x => (if s = true then unzigzag x.1 else (x.1 : Int), x.2) := by
  simp only [getInt, if_neg h]

theorem getInt_putInt {t : IntTy} (ht : Width t.bits) {i : Int} (hi : t.InRange i) (r : List UInt8) :
    getInt t (putInt t i ++ r) = some (i, r) := by
  obtain ⟨n, s⟩ := t
  have hw := width_ok ht
  dsimp only at hw
  unfold IntTy.InRange IntTy.lo IntTy.hi at hi
  dsimp only at hi
  by_cases h8 : n = 8
  · subst h8
    simp only [getInt_eight, putInt, if_true, List.cons_append, List.nil_append, Option.some.injEq, Prod.mk.injEq,
      and_true]
    have h1 : (UInt8.ofNat (i % 256).toNat).toNat = (i % 256).toNat := by simp; omega
    rw [h1]
    cases s
    · norm_num at hi ⊢; omega
    · norm_num at hi ⊢
      by_cases h0 : 128 ≤ (i % 256).toNat
      · rw [if_pos h0]; omega
      · rw [if_neg h0]; omega
  · simp only [getInt_wide h8, putInt, if_neg h8]
    cases s
    · simp only [Bool.false_eq_true, if_false] at hi ⊢
      rw [getNat_putNat hw.1]
      · simp; omega
      · have : ((2 ^ n : ℕ) : ℤ) = 2 ^ n := by push_cast; rfl
        omega
    · simp only [if_true] at hi ⊢
      rw [getNat_putNat hw.1 ((zigzag_lt hw.2 i).2 hi)]
      simp [unzigzag_zigzag]

theorem getInt_inRange {t : IntTy} (ht : Width t.bits) {i : Int} {b r : List UInt8}
    (h : getInt t b = some (i, r)) : t.InRange i := by
  obtain ⟨n, s⟩ := t
  have hw := width_ok ht
  dsimp only at hw
  unfold IntTy.InRange IntTy.lo IntTy.hi
  dsimp only
  by_cases h8 : n = 8
  · subst h8
    rw [getInt_eight] at h
    cases b with
    | nil => simp at h
    | cons x b =>
      simp only [Option.some.injEq, Prod.mk.injEq] at h
      have hx := x.toNat_lt
      rw [← h.1]
      cases s
      · norm_num; omega
      · norm_num
        by_cases h0 : 128 ≤ x.toNat
        · rw [if_pos h0]; omega
        · rw [if_neg h0]; omega
  · rw [getInt_wide h8] at h
    obtain ⟨⟨m, r'⟩, h1, h2⟩ := Option.map_eq_some_iff.1 h
    have := getNat_lt hw.1 h1
    simp only [Prod.mk.injEq] at h2
    rw [← h2.1]
    cases s
    · simp only [Bool.false_eq_true, if_false]
      have e : ((2 ^ n : ℕ) : ℤ) = 2 ^ n := by push_cast; rfl
      omega
    · simp only [if_true]
      rw [← zigzag_lt hw.2, zigzag_unzigzag]
      exact this

theorem getInt_grows {t : IntTy} {i : Int} {b r : List UInt8} (u : List UInt8)
    (h : getInt t b = some (i, r)) : getInt t (b ++ u) = some (i, r ++ u) := by
  obtain ⟨n, s⟩ := t
  by_cases h8 : n = 8
  · subst h8
    rw [getInt_eight] at h ⊢
    cases b with
    | nil => simp at h
    | cons x b =>
      simp only [Option.some.injEq, Prod.mk.injEq] at h
      simp [h.1, h.2]
  · rw [getInt_wide h8] at h ⊢
    obtain ⟨⟨n, r'⟩, h1, h2⟩ := Option.map_eq_some_iff.1 h
    rw [getNat_grows u h1]
    simp only [Prod.mk.injEq] at h2
    simp [← h2.1, ← h2.2]

theorem getInt_front {t : IntTy} {i : Int} {b r : List UInt8} (h : getInt t b = some (i, r)) :
    ∃ u, b = u ++ r := by
  obtain ⟨n, s⟩ := t
  by_cases h8 : n = 8
  · subst h8
    rw [getInt_eight] at h
    cases b with
    | nil => simp at h
    | cons x b =>
      simp only [Option.some.injEq, Prod.mk.injEq] at h
      exact ⟨[x], by simp [h.2]⟩
  · rw [getInt_wide h8] at h
    obtain ⟨⟨n, r'⟩, h1, h2⟩ := Option.map_eq_some_iff.1 h
    obtain ⟨u, _, hu⟩ := getNat_front h1
    simp only [Prod.mk.injEq] at h2
    exact ⟨u, by rw [hu, h2.2]⟩

/-! ### floats -/

theorem getLE_putLE : ∀ (k n : Nat) (r : List UInt8), n < 256 ^ k → getLE k (putLE k n ++ r) = some (n, r)
  | 0, n, r, h => by
    simp only [pow_zero, Nat.lt_one_iff] at h
    simp [getLE, putLE, h]
  | k + 1, n, r, h => by
    have h1 : (UInt8.ofNat (n % 256)).toNat = n % 256 := by simp
    simp only [putLE, List.cons_append, getLE, h1]
    rw [getLE_putLE k (n / 256) r]
    · simp; omega
    · rw [Nat.div_lt_iff_lt_mul (by omega)]
      calc n < 256 ^ (k + 1) := h
        _ = 256 ^ k * 256 := by ring

theorem getLE_grows : ∀ (k : Nat) (b : List UInt8) (n : Nat) (r t : List UInt8),
    getLE k b = some (n, r) → getLE k (b ++ t) = some (n, r ++ t)
  | 0, b, n, r, t, h => by
    simp only [getLE, Option.some.injEq, Prod.mk.injEq] at h ⊢
    simp [h.1, h.2]
  | _ + 1, [], _, _, _, h => by simp [getLE] at h
  | k + 1, x :: b, n, r, t, h => by
    simp only [getLE, List.cons_append] at h ⊢
    obtain ⟨⟨n', r'⟩, h1, h2⟩ := Option.map_eq_some_iff.1 h
    simp only [Prod.mk.injEq] at h2
    rw [getLE_grows k b n' r' t h1]
    simp [← h2.1, ← h2.2]

theorem getLE_front : ∀ (k : Nat) (b : List UInt8) (n : Nat) (r : List UInt8),
    getLE k b = some (n, r) → ∃ u, b = u ++ r
  | 0, b, n, r, h => by
    simp only [getLE, Option.some.injEq, Prod.mk.injEq] at h
    exact ⟨[], by simp [h.2]⟩
  | _ + 1, [], _, _, h => by simp [getLE] at h
  | k + 1, x :: b, n, r, h => by
    simp only [getLE] at h
    obtain ⟨⟨n', r'⟩, h1, h2⟩ := Option.map_eq_some_iff.1 h
    simp only [Prod.mk.injEq] at h2
    obtain ⟨u, hu⟩ := getLE_front k b n' r' h1
    exact ⟨x :: u, by rw [hu, h2.2]; rfl⟩

section
variable {w p : ℕ}

theorem code_lt (b : FBits w p) (hp : 0 < p) : code b < 2 ^ (w + p) := by
  have h1 := b.exp.2
  have h2 := b.man.2
  have e : 2 ^ (w + p) = 2 ^ (w + (p - 1)) + 2 ^ (w + (p - 1)) := by
    rw [← Nat.two_mul, ← pow_succ']; congr 1; omega
  have h3 : b.exp.val * 2 ^ (p - 1) + b.man.val < 2 ^ (w + (p - 1)) := by
    calc b.exp.val * 2 ^ (p - 1) + b.man.val < (b.exp.val + 1) * 2 ^ (p - 1) := by rw [Nat.succ_mul]; omega
      _ ≤ 2 ^ w * 2 ^ (p - 1) := Nat.mul_le_mul_right _ h1
      _ = 2 ^ (w + (p - 1)) := by rw [pow_add]
  unfold code
  split_ifs <;> omega

theorem ofCode_code (b : FBits w p) : (ofCode (code b) : FBits w p) = b := by
  obtain ⟨s, ⟨e, he⟩, ⟨m, hm⟩⟩ := b
  have hM : 0 < 2 ^ (p - 1) := by positivity
  have hW : 0 < 2 ^ w := by positivity
  have h1 : (e * 2 ^ (p - 1) + m) / 2 ^ (p - 1) = e := by
    rw [Nat.mul_comm, Nat.mul_add_div hM, Nat.div_eq_of_lt hm, Nat.add_zero]
  have h2 : (e * 2 ^ (p - 1) + m) % 2 ^ (p - 1) = m := by
    rw [Nat.mul_comm, Nat.mul_add_mod, Nat.mod_eq_of_lt hm]
  have h3 : e * 2 ^ (p - 1) + m < 2 ^ (w + (p - 1)) := by
    calc e * 2 ^ (p - 1) + m < (e + 1) * 2 ^ (p - 1) := by rw [Nat.succ_mul]; omega
      _ ≤ 2 ^ w * 2 ^ (p - 1) := Nat.mul_le_mul_right _ he
      _ = 2 ^ (w + (p - 1)) := by rw [pow_add]
  have hP : 0 < 2 ^ (w + (p - 1)) := by positivity
  have hsplit : 2 ^ (w + (p - 1)) = 2 ^ w * 2 ^ (p - 1) := pow_add _ _ _
  cases s
  · simp only [code, ofCode, Bool.false_eq_true, if_false, Nat.zero_add, FBits.mk.injEq, Fin.mk.injEq]
    refine ⟨?_, ?_, h2⟩
    · rw [Nat.div_eq_of_lt h3]; rfl
    · rw [h1, Nat.mod_eq_of_lt he]
  · simp only [code, ofCode, if_true, FBits.mk.injEq, Fin.mk.injEq]
    refine ⟨?_, ?_, ?_⟩
    · rw [Nat.add_assoc, Nat.add_div_left _ hP, Nat.div_eq_of_lt h3]; rfl
    · rw [hsplit, Nat.add_assoc, Nat.mul_comm (2 ^ w), Nat.mul_add_div hM, h1, Nat.add_mod_left, Nat.mod_eq_of_lt he]
    · rw [hsplit, Nat.add_assoc, Nat.mul_comm (2 ^ w), Nat.mul_add_mod, h2]

theorem code_ofCode (hp : 0 < p) {n : ℕ} (hn : n < 2 ^ (w + p)) : code (ofCode n : FBits w p) = n := by
  unfold code ofCode
  have e : 2 ^ (w + p) = 2 * 2 ^ (w + (p - 1)) := by rw [← pow_succ']; congr 1; omega
  have h1 : n / 2 ^ (w + (p - 1)) < 2 := by rw [Nat.div_lt_iff_lt_mul (by positivity), ← e]; exact hn
  have h2 := Nat.div_add_mod n (2 ^ (p - 1))
  have h3 := Nat.div_add_mod (n / 2 ^ (p - 1)) (2 ^ w)
  have h4 : n / 2 ^ (p - 1) / 2 ^ w = n / 2 ^ (w + (p - 1)) := by rw [Nat.div_div_eq_div_mul, ← pow_add, Nat.add_comm]
  rw [h4] at h3
  have h5 : 2 ^ (w + (p - 1)) = 2 ^ (p - 1) * 2 ^ w := by rw [← pow_add, Nat.add_comm]
  dsimp only
  generalize n / 2 ^ (w + (p - 1)) = d at *
  rw [h5]
  have hd : d = 0 ∨ d = 1 := by omega
  rcases hd with rfl | rfl
  · simp only [Nat.zero_mod, Nat.zero_ne_one, decide_false, Bool.false_eq_true, if_false]
    calc _ = 2 ^ (p - 1) * (2 ^ w * 0 + n / 2 ^ (p - 1) % 2 ^ w) + n % 2 ^ (p - 1) := by ring
      _ = n := by rw [h3, h2]
  · simp only [Nat.mod_eq_of_lt (show 1 < 2 by decide), decide_true, if_true]
    calc _ = 2 ^ (p - 1) * (2 ^ w * 1 + n / 2 ^ (p - 1) % 2 ^ w) + n % 2 ^ (p - 1) := by ring
      _ = n := by rw [h3, h2]
end

/-! ### shapes -/

namespace Shape

theorem unit_lawful : unit.Lawful where
  roundtrip d b r h := by
    cases d <;> simp only [unit, Option.some.injEq, reduceCtorEq] at h
    subst h; rfl
  grows b d r t h := by
    simp only [unit, Option.some.injEq, Prod.mk.injEq] at h
    rw [← h.1, ← h.2]; rfl
  front b d r h := by
    simp only [unit, Option.some.injEq, Prod.mk.injEq] at h
    exact ⟨[], h.2⟩
  again b d r h := by
    simp only [unit, Option.some.injEq, Prod.mk.injEq] at h
    rw [← h.1]; exact ⟨[], rfl⟩

theorem bool_get {b : List UInt8} {d : Data} {r : List UInt8} (h : bool.get b = some (d, r)) :
    ∃ x : Bool, d = .bool x ∧ b = (if x then 1 else 0) :: r := by
  cases b with
  | nil => simp [bool] at h
  | cons y b =>
    simp only [bool] at h
    split_ifs at h with h0 h1 <;> simp only [Option.some.injEq, Prod.mk.injEq] at h
    · exact ⟨false, h.1.symm, by simp [h0, h.2]⟩
    · exact ⟨true, h.1.symm, by simp [h1, h.2]⟩

theorem bool_lawful : bool.Lawful where
  roundtrip d b r h := by
    cases d <;> simp only [bool, Option.some.injEq, reduceCtorEq] at h
    subst h
    rename_i x
    cases x <;> simp [bool]
  grows b d r t h := by
    obtain ⟨x, rfl, rfl⟩ := bool_get h
    cases x <;> simp [bool]
  front b d r h := by
    obtain ⟨x, rfl, rfl⟩ := bool_get h
    exact ⟨[_], rfl⟩
  again b d r h := by
    obtain ⟨x, rfl, rfl⟩ := bool_get h
    exact ⟨_, rfl⟩

theorem int_lawful {t : IntTy} (ht : Width t.bits) : (int t).Lawful where
  roundtrip d b r h := by
    cases d <;> simp only [int, reduceCtorEq] at h
    split_ifs at h with hi
    simp only [Option.some.injEq] at h
    simp [int, ← h, getInt_putInt ht hi]
  grows b d r u h := by
    simp only [int] at h ⊢
    obtain ⟨⟨n, r'⟩, h1, h2⟩ := Option.map_eq_some_iff.1 h
    simp only [Prod.mk.injEq] at h2
    simp [getInt_grows u h1, ← h2.1, ← h2.2]
  front b d r h := by
    simp only [int] at h
    obtain ⟨⟨n, r'⟩, h1, h2⟩ := Option.map_eq_some_iff.1 h
    simp only [Prod.mk.injEq] at h2
    rw [← h2.2]; exact getInt_front h1
  again b d r h := by
    simp only [int] at h
    obtain ⟨⟨n, r'⟩, h1, h2⟩ := Option.map_eq_some_iff.1 h
    simp only [Prod.mk.injEq] at h2
    rw [← h2.1]
    simp only [int, if_pos (getInt_inRange ht h1)]
    exact ⟨_, rfl⟩

theorem float_lawful {w p : ℕ} (hp : 0 < p) (h8 : (w + p) % 8 = 0) {c : Fl → FBits w p} (hc : Picks c) :
    (float c).Lawful where
  roundtrip d b r h := by
    cases d <;> simp only [float, reduceCtorEq] at h
    split_ifs at h with hi
    simp only [Option.some.injEq] at h
    simp only [float, ← h]
    rw [getLE_putLE]
    · simp [ofCode_code, hi]
    · calc code (c _) < 2 ^ (w + p) := code_lt _ hp
        _ = 2 ^ (8 * ((w + p) / 8)) := by congr 1; omega
        _ = 256 ^ ((w + p) / 8) := by rw [pow_mul]; rfl
  grows b d r u h := by
    simp only [float] at h ⊢
    obtain ⟨⟨n, r'⟩, h1, h2⟩ := Option.map_eq_some_iff.1 h
    simp only [Prod.mk.injEq] at h2
    simp [getLE_grows _ _ _ _ u h1, ← h2.1, ← h2.2]
  front b d r h := by
    simp only [float] at h
    obtain ⟨⟨n, r'⟩, h1, h2⟩ := Option.map_eq_some_iff.1 h
    simp only [Prod.mk.injEq] at h2
    rw [← h2.2]; exact getLE_front _ _ _ _ h1
  again b d r h := by
    simp only [float] at h
    obtain ⟨⟨n, r'⟩, h1, h2⟩ := Option.map_eq_some_iff.1 h
    simp only [Prod.mk.injEq] at h2
    rw [← h2.1]
    simp only [float, if_pos (hc _)]
    exact ⟨_, rfl⟩

theorem fromUTF8?_bytes (s : String) : String.fromUTF8? ⟨s.toByteArray.data.toList.toArray⟩ = some s := by
  have h : (⟨s.toByteArray.data.toList.toArray⟩ : ByteArray) = s.toByteArray := by simp
  rw [h, String.fromUTF8?, dif_pos s.isValidUTF8]
  rfl

theorem str_get {b : List UInt8} {d : Data} {r : List UInt8} (h : str.get b = some (d, r)) :
    ∃ (s : String) (u : List UInt8), d = .str s ∧ s.toByteArray.data.toList.length < 2 ^ 64 ∧ u ≠ [] ∧
      b = u ++ (s.toByteArray.data.toList ++ r) ∧
      getNat 64 b = some (s.toByteArray.data.toList.length, s.toByteArray.data.toList ++ r) := by
  simp only [str] at h
  cases hn : getNat 64 b with
  | none => simp [hn] at h
  | some x =>
    obtain ⟨n, b'⟩ := x
    simp only [hn] at h
    split_ifs at h with hl
    obtain ⟨s, h1, h2⟩ := Option.map_eq_some_iff.1 h
    simp only [Prod.mk.injEq] at h2
    have hs : s.toByteArray.data.toList = b'.take n := by
      rw [String.fromUTF8?] at h1
      split_ifs at h1 with hv
      simp only [Option.some.injEq] at h1
      rw [← h1]; rfl
    have hlen : (b'.take n).length = n := by simp; omega
    obtain ⟨u, hu, hb⟩ := getNat_front hn
    refine ⟨s, u, h2.1.symm, ?_, hu, ?_, ?_⟩
    · rw [hs, hlen]; exact getNat_lt (by decide) hn
    · rw [hs, ← h2.2, List.take_append_drop]; exact hb
    · rw [hs, hlen, ← h2.2, List.take_append_drop]

theorem str_get_of {b : List UInt8} {s : String} {r : List UInt8}
    (h : getNat 64 b = some (s.toByteArray.data.toList.length, s.toByteArray.data.toList ++ r)) :
    str.get b = some (.str s, r) := by
  simp only [str, h]
  rw [if_neg (by simp), List.take_left, fromUTF8?_bytes, List.drop_left]
  rfl

theorem str_lawful : str.Lawful where
  roundtrip d b r h := by
    cases d <;> simp only [str, reduceCtorEq] at h
    split_ifs at h with hi
    simp only [Option.some.injEq] at h
    apply str_get_of
    rw [← h, List.append_assoc, getNat_putNat (by decide) hi]
  grows b d r t h := by
    obtain ⟨s, u, rfl, _, _, _, h1⟩ := str_get h
    apply str_get_of
    rw [getNat_grows t h1, List.append_assoc]
  front b d r h := by
    obtain ⟨s, u, _, _, _, h1, _⟩ := str_get h
    exact ⟨u ++ s.toByteArray.data.toList, by rw [h1, List.append_assoc]⟩
  again b d r h := by
    obtain ⟨s, u, rfl, h1, _⟩ := str_get h
    simp only [str, if_pos h1]
    exact ⟨_, rfl⟩

theorem getAll_putAll : ∀ {l : List Shape}, (∀ s ∈ l, s.Lawful) → ∀ (ds : List Data) (b r : List UInt8),
    putAll l ds = some b → getAll l (b ++ r) = some (ds, r)
  | [], _, ds, b, r, h => by
    cases ds <;> simp only [putAll, Option.some.injEq, reduceCtorEq] at h
    subst h; rfl
  | s :: l, hl, [], b, r, h => by simp [putAll] at h
  | s :: l, hl, d :: ds, b, r, h => by
    simp only [putAll] at h
    cases h1 : s.put d with
    | none => simp [h1] at h
    | some u =>
      cases h2 : putAll l ds with
      | none => simp [h1, h2] at h
      | some v =>
        simp only [h1, h2, Option.some.injEq] at h
        subst h
        simp only [getAll, List.append_assoc, (hl s (by simp)).roundtrip d u _ h1]
        rw [getAll_putAll (fun s hs => hl s (by simp [hs])) ds v r h2]
        rfl

theorem getAll_grows : ∀ {l : List Shape}, (∀ s ∈ l, s.Lawful) → ∀ (b : List UInt8) (ds : List Data)
    (r t : List UInt8), getAll l b = some (ds, r) → getAll l (b ++ t) = some (ds, r ++ t)
  | [], _, b, ds, r, t, h => by
    simp only [getAll, Option.some.injEq, Prod.mk.injEq] at h ⊢
    simp [← h.1, ← h.2]
  | s :: l, hl, b, ds, r, t, h => by
    simp only [getAll] at h ⊢
    cases h1 : s.get b with
    | none => simp [h1] at h
    | some x =>
      obtain ⟨d, b'⟩ := x
      simp only [h1] at h
      obtain ⟨⟨ds', r'⟩, h2, h3⟩ := Option.map_eq_some_iff.1 h
      simp only [Prod.mk.injEq] at h3
      simp only [(hl s (by simp)).grows _ _ _ t h1]
      rw [getAll_grows (fun s hs => hl s (by simp [hs])) b' ds' r' t h2]
      simp [← h3.1, ← h3.2]

theorem getAll_front : ∀ {l : List Shape}, (∀ s ∈ l, s.Lawful) → ∀ (b : List UInt8) (ds : List Data)
    (r : List UInt8), getAll l b = some (ds, r) → (∃ u, b = u ++ r) ∧ ∃ u, putAll l ds = some u
  | [], _, b, ds, r, h => by
    simp only [getAll, Option.some.injEq, Prod.mk.injEq] at h
    exact ⟨⟨[], h.2⟩, by rw [← h.1]; exact ⟨[], rfl⟩⟩
  | s :: l, hl, b, ds, r, h => by
    simp only [getAll] at h
    cases h1 : s.get b with
    | none => simp [h1] at h
    | some x =>
      obtain ⟨d, b'⟩ := x
      simp only [h1] at h
      obtain ⟨⟨ds', r'⟩, h2, h3⟩ := Option.map_eq_some_iff.1 h
      simp only [Prod.mk.injEq] at h3
      obtain ⟨⟨u, hu⟩, ⟨v, hv⟩⟩ := getAll_front (fun s hs => hl s (by simp [hs])) b' ds' r' h2
      obtain ⟨u', hu'⟩ := (hl s (by simp)).front _ _ _ h1
      obtain ⟨v', hv'⟩ := (hl s (by simp)).again _ _ _ h1
      refine ⟨⟨u' ++ u, by rw [hu', hu, h3.2, List.append_assoc]⟩, ⟨v' ++ v, ?_⟩⟩
      rw [← h3.1]
      simp [putAll, hv', hv]

theorem tuple_lawful {l : List Shape} (hl : ∀ s ∈ l, s.Lawful) : (tuple l).Lawful where
  roundtrip d b r h := by
    cases d <;> simp only [tuple, reduceCtorEq] at h
    simp [tuple, getAll_putAll hl _ _ r h]
  grows b d r t h := by
    simp only [tuple] at h ⊢
    obtain ⟨⟨n, r'⟩, h1, h2⟩ := Option.map_eq_some_iff.1 h
    simp only [Prod.mk.injEq] at h2
    simp [getAll_grows hl _ _ _ t h1, ← h2.1, ← h2.2]
  front b d r h := by
    simp only [tuple] at h
    obtain ⟨⟨n, r'⟩, h1, h2⟩ := Option.map_eq_some_iff.1 h
    simp only [Prod.mk.injEq] at h2
    rw [← h2.2]; exact (getAll_front hl _ _ _ h1).1
  again b d r h := by
    simp only [tuple] at h
    obtain ⟨⟨n, r'⟩, h1, h2⟩ := Option.map_eq_some_iff.1 h
    simp only [Prod.mk.injEq] at h2
    rw [← h2.1]; exact (getAll_front hl _ _ _ h1).2

theorem variants_lawful {l : List (Option Shape)} (hn : l.length ≤ 2 ^ 32) (hl : ∀ s, some s ∈ l → s.Lawful) :
    (variants l).Lawful where
  roundtrip d b r h := by
    match d with
    | .unitVariant (.inr i) =>
      simp only [variants] at h
      cases hi : l[i]? with
      | none => simp [hi] at h
      | some o =>
        obtain ⟨hlt, _⟩ := List.getElem?_eq_some_iff.1 hi
        cases o with
        | some s => simp [hi] at h
        | none =>
          simp only [hi, Option.some.injEq] at h
          simp only [variants, ← h, getNat_putNat (n := 32) (by decide) (by omega : i < 2 ^ 32), hi]
    | .newtypeVariant (.inr i) d =>
      simp only [variants] at h
      cases hi : l[i]? with
      | none => simp [hi] at h
      | some o =>
        obtain ⟨hlt, he⟩ := List.getElem?_eq_some_iff.1 hi
        cases o with
        | none => simp [hi] at h
        | some s =>
          simp only [hi] at h
          obtain ⟨u, h1, h2⟩ := Option.map_eq_some_iff.1 h
          simp only [variants, ← h2, List.append_assoc, getNat_putNat (n := 32) (by decide) (by omega : i < 2 ^ 32), hi]
          rw [(hl s (by rw [← he]; exact List.getElem_mem _)).roundtrip _ _ r h1]
          rfl
    | .unitVariant (.inl i) => simp [variants] at h
    | .newtypeVariant (.inl i) d => simp [variants] at h
    | .unit => simp [variants] at h
    | .bool _ => simp [variants] at h
    | .int _ => simp [variants] at h
    | .float _ => simp [variants] at h
    | .str _ => simp [variants] at h
    | .seq _ => simp [variants] at h
    | .fields _ => simp [variants] at h
    | .other _ => simp [variants] at h
  grows b d r t h := by
    simp only [variants] at h ⊢
    cases h0 : getNat 32 b with
    | none => simp [h0] at h
    | some x =>
      obtain ⟨i, b'⟩ := x
      simp only [h0, getNat_grows t h0] at h ⊢
      cases hi : l[i]? with
      | none => simp [hi] at h
      | some o =>
        obtain ⟨hlt, he⟩ := List.getElem?_eq_some_iff.1 hi
        cases o with
        | none =>
          simp only [hi, Option.some.injEq, Prod.mk.injEq] at h ⊢
          simp [← h.1, ← h.2]
        | some s =>
          simp only [hi] at h ⊢
          obtain ⟨⟨n, r'⟩, h1, h2⟩ := Option.map_eq_some_iff.1 h
          simp only [Prod.mk.injEq] at h2
          rw [(hl s (by rw [← he]; exact List.getElem_mem _)).grows _ _ _ t h1]
          simp [← h2.1, ← h2.2]
  front b d r h := by
    simp only [variants] at h
    cases h0 : getNat 32 b with
    | none => simp [h0] at h
    | some x =>
      obtain ⟨i, b'⟩ := x
      obtain ⟨u, _, hu⟩ := getNat_front h0
      simp only [h0] at h
      cases hi : l[i]? with
      | none => simp [hi] at h
      | some o =>
        obtain ⟨hlt, he⟩ := List.getElem?_eq_some_iff.1 hi
        cases o with
        | none =>
          simp only [hi, Option.some.injEq, Prod.mk.injEq] at h
          exact ⟨u, by rw [hu, h.2]⟩
        | some s =>
          simp only [hi] at h
          obtain ⟨⟨n, r'⟩, h1, h2⟩ := Option.map_eq_some_iff.1 h
          simp only [Prod.mk.injEq] at h2
          obtain ⟨v, hv⟩ := (hl s (by rw [← he]; exact List.getElem_mem _)).front _ _ _ h1
          exact ⟨u ++ v, by rw [hu, hv, h2.2, List.append_assoc]⟩
  again b d r h := by
    simp only [variants] at h
    cases h0 : getNat 32 b with
    | none => simp [h0] at h
    | some x =>
      obtain ⟨i, b'⟩ := x
      simp only [h0] at h
      cases hi : l[i]? with
      | none => simp [hi] at h
      | some o =>
        obtain ⟨hlt, he⟩ := List.getElem?_eq_some_iff.1 hi
        cases o with
        | none =>
          simp only [hi, Option.some.injEq, Prod.mk.injEq] at h
          rw [← h.1]
          simp only [variants, hi]
          exact ⟨_, rfl⟩
        | some s =>
          simp only [hi] at h
          obtain ⟨⟨n, r'⟩, h1, h2⟩ := Option.map_eq_some_iff.1 h
          simp only [Prod.mk.injEq] at h2
          obtain ⟨v, hv⟩ := (hl s (by rw [← he]; exact List.getElem_mem _)).again _ _ _ h1
          rw [← h2.1]
          simp only [variants, hi, hv]
          exact ⟨_, rfl⟩

end Shape

end Postcard
end BSQ
