import Verif.Proofs.Postcard
import Verif.Props.SerdeTypes
import Verif.Props.Serde
import Verif.Props.SaveLoad
import Verif.Props.FloatBits
/-!
# C132: maps as bytes
-/
set_option linter.unusedSectionVars false
namespace BSQ
namespace Postcard

/-! ### the types of the crate -/

/-- the format of positions and numbers -/
abbrev fmt : Format := ⟨false, false⟩

/-- **C132** What impls with a lawful shape write as bytes is read back, whatever follows, and what follows is left. -/
theorem C132_value {α : Type} {s : Shape} {k : Codec α} {P : α → Prop} (hs : s.For k P) (hk : k.Exact P) (x : α)
    (hx : P x) : ∃ b, s.put (k.ser x) = some b ∧
      ∀ r, ∃ d, s.get (b ++ r) = some (d, r) ∧ k.de d = some x := by
  obtain ⟨b, hb⟩ := hs.2 x hx
  exact ⟨b, hb, fun r => ⟨_, hs.1.roundtrip _ _ r hb, hk.roundtrip x hx⟩⟩

theorem continued_cons {x : UInt8} {c : List UInt8} (hc : Continued c) :
    Continued (x :: c) ↔ 128 ≤ x.toNat := by
  cases c with
  | nil => exact hc.elim
  | cons y c => exact ⟨fun h => h.1, fun h => ⟨h, hc⟩⟩

theorem digits_lt : ∀ u : List UInt8, digits u < 128 ^ u.length
  | [] => by simp [digits]
  | x :: u => by
    have := digits_lt u
    have := Nat.mod_lt x.toNat (show 0 < 128 by decide)
    simp only [digits, List.length_cons, pow_succ]
    omega

theorem getVar_iff (last : Nat) (hl : last < 128) : ∀ (k : Nat) (b : List UInt8) (x : Nat) (r : List UInt8),
    getVar last (k + 1) b = some (x, r) ↔ ∃ u, b = u ++ r ∧ Continued u ∧ digits u = x ∧ u.length ≤ k + 1 ∧
      x < 128 ^ k * (last + 1)
  | _, [], x, r => by
    simp only [getVar, reduceCtorEq, false_iff]
    rintro ⟨u, h1, h2, _⟩
    obtain ⟨rfl, rfl⟩ := List.append_eq_nil_iff.1 h1.symm
    exact h2
  | k, y :: b, x, r => by
    by_cases hy : y.toNat < 128
    · simp only [getVar, if_pos hy]
      constructor
      · intro h
        have hlt := getVar_lt last k (y :: b) x r (by simp only [getVar, if_pos hy]; exact h)
        split_ifs at h
        simp only [Option.some.injEq, Prod.mk.injEq] at h
        obtain ⟨rfl, rfl⟩ := h
        exact ⟨[y], rfl, hy, by simp [digits]; omega, by simp, hlt⟩
      · rintro ⟨u, h1, h2, h3, h4, h5⟩
        cases u with
        | nil => exact h2.elim
        | cons z u =>
          obtain ⟨rfl, rfl⟩ := List.cons.inj h1
          cases u with
          | nil =>
            simp only [digits, Nat.mul_zero, Nat.add_zero] at h3
            rw [Nat.mod_eq_of_lt hy] at h3
            subst h3
            rw [if_neg]
            · rfl
            · rintro ⟨rfl, h⟩
              simp at h5; omega
          | cons w u => exact absurd h2.1 (by omega)
    · simp only [getVar, if_neg hy]
      have hm : y.toNat % 128 = y.toNat - 128 := by have := y.toNat_lt; omega
      cases k with
      | zero =>
        simp only [getVar, Option.map_none, reduceCtorEq, false_iff]
        rintro ⟨u, h1, h2, h3, h4, h5⟩
        cases u with
        | nil => exact h2.elim
        | cons z u =>
          obtain ⟨rfl, rfl⟩ := List.cons.inj h1
          cases u with
          | nil => exact hy h2
          | cons w u => simp at h4
      | succ k =>
        constructor
        · intro h
          obtain ⟨⟨x', r'⟩, h1, h2⟩ := Option.map_eq_some_iff.1 h
          simp only [Prod.mk.injEq] at h2
          obtain ⟨rfl, rfl⟩ := h2
          obtain ⟨u, rfl, g2, g3, g4, g5⟩ := (getVar_iff last hl k b x' r').1 h1
          refine ⟨y :: u, rfl, (continued_cons g2).2 (by omega), by simp only [digits, hm, g3], by simpa using g4, ?_⟩
          have := y.toNat_lt
          rw [pow_succ, Nat.mul_comm _ 128, Nat.mul_assoc]
          omega
        · rintro ⟨u, h1, h2, h3, h4, h5⟩
          cases u with
          | nil => exact h2.elim
          | cons z u =>
            obtain ⟨rfl, rfl⟩ := List.cons.inj h1
            cases u with
            | nil => exact absurd h2 hy
            | cons w u =>
              refine Option.map_eq_some_iff.2 ⟨(digits (w :: u), r), ?_, ?_⟩
              · refine (getVar_iff last hl k _ _ _).2 ⟨w :: u, rfl, h2.2, rfl, by simpa using h4, ?_⟩
                rw [pow_succ, Nat.mul_comm _ 128, Nat.mul_assoc] at h5
                simp only [digits] at h3 ⊢
                omega
              · simp only [Prod.mk.injEq, and_true]
                rw [← h3, ← hm]; rfl

/-- **C132** Which bytes are read as a number: its digits to base 128, the lowest first, all but the last with the
highest bit set; at most as many as the type needs, and a number of the type. -/
theorem C132_number_iff {n : Nat} (hn : Width n) (b : List UInt8) (x : Nat) (r : List UInt8) :
    getNat n b = some (x, r) ↔ ∃ u, b = u ++ r ∧ Continued u ∧ digits u = x ∧ 7 * (u.length - 1) < n ∧ x < 2 ^ n := by
  have hw := width_ok hn
  obtain ⟨h1, h2, h3⟩ := wide_pow hw.1
  rw [getNat, h1, getVar_iff _ h3, h2]
  constructor
  · rintro ⟨u, g1, g2, g3, g4, g5⟩; exact ⟨u, g1, g2, g3, by omega, g5⟩
  · rintro ⟨u, g1, g2, g3, g4, g5⟩; exact ⟨u, g1, g2, g3, by omega, g5⟩

theorem putVar_shortest : ∀ (k n : Nat), n < 128 ^ k → 0 < k →
    Continued (putVar k n) ∧ digits (putVar k n) = n ∧ ((putVar k n).length = 1 ∨ 128 ^ ((putVar k n).length - 1) ≤ n)
  | 0, _, _, h => absurd h (by decide)
  | k + 1, n, hn, _ => by
    unfold putVar
    by_cases h : n < 128
    · rw [if_pos h]
      have h1 : (UInt8.ofNat n).toNat = n := by simp; omega
      exact ⟨by simp only [Continued, h1]; exact h, by simp only [digits, h1]; omega, Or.inl rfl⟩
    · rw [if_neg h]
      have h1 : (UInt8.ofNat (n % 128 + 128)).toNat = n % 128 + 128 := by simp; omega
      have hk : 0 < k := by
        rcases Nat.eq_zero_or_pos k with rfl | hk
        · simp at hn; omega
        · exact hk
      obtain ⟨g1, g2, g3⟩ := putVar_shortest k (n / 128) (by rw [pow_succ] at hn; omega) hk
      refine ⟨(continued_cons g1).2 (by omega), ?_, Or.inr ?_⟩
      · simp only [digits, h1, g2]; omega
      · simp only [List.length_cons, Nat.add_sub_cancel]
        rcases g3 with g3 | g3
        · rw [g3]; omega
        · have hp : 0 < (putVar k (n / 128)).length := by
            rw [List.length_pos_iff]; intro h0; rw [h0] at g1; exact g1
          obtain ⟨j, hj⟩ : ∃ j, (putVar k (n / 128)).length = j + 1 := ⟨_, (Nat.sub_add_cancel hp).symm⟩
          rw [hj, Nat.add_sub_cancel] at g3
          rw [hj, pow_succ]; omega

/-- **C132** A number is written in the fewest bytes that are read as it. -/
theorem C132_number {n : Nat} (hn : Width n) {x : Nat} (hx : x < 2 ^ n) (u r : List UInt8)
    (hu : getNat n (u ++ r) = some (x, r)) :
    getNat n (putNat n x ++ r) = some (x, r) ∧ (putNat n x).length ≤ u.length := by
  have hw := width_ok hn
  obtain ⟨h1, h2, h3⟩ := wide_pow hw.1
  refine ⟨getNat_putNat hw.1 hx r, ?_⟩
  obtain ⟨u', g1, g2, g3, _⟩ := (C132_number_iff hn _ _ _).1 hu
  rw [List.append_cancel_right_eq] at g1
  subst g1
  have hlt : x < 128 ^ ((n + 6) / 7) := by
    calc x < 2 ^ n := hx
      _ ≤ 2 ^ (7 * ((n + 6) / 7)) := Nat.pow_le_pow_right (by decide) (by omega)
      _ = 128 ^ ((n + 6) / 7) := by rw [pow_mul]; rfl
  obtain ⟨_, _, g4⟩ := putVar_shortest _ _ hlt (by omega)
  rw [← putNat] at g4
  have hlen : 0 < u.length := by rw [List.length_pos_iff]; intro h0; rw [h0] at g2; exact g2
  rcases g4 with g4 | g4
  · omega
  · have h5 := digits_lt u
    rw [g3] at h5
    have := (Nat.pow_lt_pow_iff_right (a := 128) (by decide)).1 (g4.trans_lt h5)
    omega

/-- **C132** Which bytes are read as an integer: one byte in two's complement, or a number that is the integer, and for
signed types twice the integer, or for negative ones twice its distance from `0`, minus one. -/
theorem C132_integer_iff {n : Nat} (hn : Width n) (s : Bool) (b : List UInt8) (i : Int) (r : List UInt8) :
    getInt ⟨n, s⟩ b = some (i, r) ↔
      if n = 8 then ∃ x, b = x :: r ∧ i = if s then x.toBitVec.toInt else x.toNat
      else if s then ∃ k : Nat, getNat n b = some (k, r) ∧ (k : Int) = if 0 ≤ i then 2 * i else -2 * i - 1
      else ∃ k : Nat, getNat n b = some (k, r) ∧ (k : Int) = i := by
  by_cases h8 : n = 8
  · subst h8
    rw [getInt_eight, if_pos rfl]
    cases b with
    | nil => simp
    | cons x c =>
      have e : (if s = true ∧ 128 ≤ x.toNat then (x.toNat : Int) - 256 else x.toNat) =
          if s then x.toBitVec.toInt else x.toNat := by
        have h1 : x.toBitVec.toNat = x.toNat := rfl
        have h2 := x.toNat_lt
        rw [BitVec.toInt_eq_toNat_cond, h1]
        cases s <;> simp only [Bool.false_eq_true, false_and, if_false, true_and, if_true]
        split_ifs <;> omega
      simp only [Option.some.injEq, Prod.mk.injEq, List.cons.injEq, e]
      constructor
      · rintro ⟨rfl, rfl⟩; exact ⟨x, ⟨rfl, rfl⟩, rfl⟩
      · rintro ⟨y, ⟨rfl, rfl⟩, rfl⟩; exact ⟨rfl, rfl⟩
  · rw [getInt_wide h8, if_neg h8, Option.map_eq_some_iff]
    cases s with
    | false =>
      simp only [Bool.false_eq_true, if_false]
      constructor
      · rintro ⟨⟨k, r'⟩, h1, h2⟩
        simp only [Prod.mk.injEq] at h2
        obtain ⟨rfl, rfl⟩ := h2
        exact ⟨k, h1, rfl⟩
      · rintro ⟨k, h1, rfl⟩; exact ⟨(k, r), h1, rfl⟩
    | true =>
      simp only [if_true]
      constructor
      · rintro ⟨⟨k, r'⟩, h1, h2⟩
        simp only [Prod.mk.injEq] at h2
        obtain ⟨rfl, rfl⟩ := h2
        refine ⟨k, h1, ?_⟩
        simp only [unzigzag]
        split_ifs <;> omega
      · rintro ⟨k, h1, h2⟩
        refine ⟨(k, r), h1, ?_⟩
        simp only [Prod.mk.injEq, and_true, unzigzag]
        split_ifs at h2 ⊢ <;> omega

theorem C132_int {t : IntTy} (ht : Width t.bits) : (Shape.int t).For (Codec.int t) t.InRange :=
  ⟨Shape.int_lawful ht, fun x hx => ⟨putInt t x, by simp [Shape.int, Codec.int, hx]⟩⟩

theorem C132_bool : Shape.bool.For Codec.bool (fun _ => True) :=
  ⟨Shape.bool_lawful, fun _ _ => ⟨_, rfl⟩⟩

/-- integer flag sets are written as unsigned integers -/
theorem C132_bits {n : Nat} (hn : Width n) : (Shape.int ⟨n, false⟩).For (Codec.bits n) (fun _ => True) := by
  refine ⟨Shape.int_lawful hn, fun x _ => ⟨putInt ⟨n, false⟩ x.toNat, ?_⟩⟩
  have : IntTy.InRange ⟨n, false⟩ (x.toNat : Int) := by
    have h := x.isLt
    have e : ((2 ^ n : ℕ) : ℤ) = 2 ^ n := by push_cast; rfl
    simp only [IntTy.InRange, IntTy.lo, IntTy.hi, Bool.false_eq_true, if_false]
    omega
  simp only [Shape.int, Codec.bits, this, if_true]

/-- the values of a format are the meanings of its bit patterns -/
theorem of_iff {w p : ℕ} (h : UsualBits w p) (x : Fl) :
    Fl.Of (Fmt.ofBits w p) x ↔ ∃ b : FBits w p, x = b.denotes := by
  constructor
  · intro hx
    obtain ⟨c, hc, _⟩ := FBits.pattern h (x := x) (fun q hq => by subst hq; exact hx) false
    exact ⟨c, hc.symm⟩
  · rintro ⟨b, rfl⟩
    cases hb : b.denotes with
    | fin q =>
      have hf : b.IsFin := by
        unfold FBits.denotes at hb
        unfold FBits.IsFin
        intro h0
        rw [if_pos h0] at hb
        split_ifs at hb
      rw [FBits.denotes_fin hf] at hb
      cases hb
      exact FBits.rep_val h hf
    | _ => trivial

/-- **C132** Floats are written as their bits, whichever the pattern of zero and NaN is. -/
theorem C132_float {w p : ℕ} (h : UsualBits w p) (h8 : (w + p) % 8 = 0) {c : Fl → FBits w p} (hc : Picks c) :
    (Shape.float c).For (Codec.float (Fmt.ofBits w p)) (Fl.Of (Fmt.ofBits w p)) :=
  ⟨Shape.float_lawful (by have := h.p2; omega) h8 hc, fun x hx => by
    obtain ⟨b, rfl⟩ := (of_iff h x).1 hx
    exact ⟨_, by simp only [Shape.float, Codec.float, hc b, if_true]; rfl⟩⟩

/-- C132: there is such a choice of patterns -/
example {w p : ℕ} : ∃ c : Fl → FBits w p, Picks c :=
  ⟨fun x => open Classical in if h : ∃ b : FBits w p, b.denotes = x then h.choose else ofCode 0, fun b => by
    have h : ∃ b' : FBits w p, b'.denotes = b.denotes := ⟨b, rfl⟩
    simp only [dif_pos h]
    exact h.choose_spec⟩

/-- C132: `f32` and `f64` are such formats -/
example : Fmt.ofBits 8 24 = .f32 ∧ Fmt.ofBits 11 53 = .f64 ∧ UsualBits 8 24 ∧ UsualBits 11 53 ∧ (8 + 24) % 8 = 0 ∧
    (11 + 53) % 8 = 0 :=
  ⟨by decide, by decide +kernel, usual_f32, usual_f64, rfl, rfl⟩

theorem getLE_iff : ∀ (k : Nat) (b : List UInt8) (x : Nat) (r : List UInt8),
    getLE k b = some (x, r) ↔ ∃ u, b = u ++ r ∧ u.length = k ∧ bytesNat u = x
  | 0, b, x, r => by
    simp only [getLE, Option.some.injEq, Prod.mk.injEq]
    constructor
    · rintro ⟨rfl, rfl⟩; exact ⟨[], rfl, rfl, rfl⟩
    · rintro ⟨u, rfl, h1, h2⟩
      rw [List.length_eq_zero_iff] at h1
      subst h1
      exact ⟨h2, rfl⟩
  | k + 1, [], x, r => by
    simp only [getLE, reduceCtorEq, false_iff]
    rintro ⟨u, h1, h2, _⟩
    obtain ⟨rfl, _⟩ := List.append_eq_nil_iff.1 h1.symm
    simp at h2
  | k + 1, y :: b, x, r => by
    simp only [getLE, Option.map_eq_some_iff]
    constructor
    · rintro ⟨⟨z, r'⟩, h1, h2⟩
      simp only [Prod.mk.injEq] at h2
      obtain ⟨rfl, rfl⟩ := h2
      obtain ⟨u, rfl, g1, g2⟩ := (getLE_iff k b z r').1 h1
      exact ⟨y :: u, rfl, by simp [g1], by simp [bytesNat, Nat.ofDigits_cons, ← g2]⟩
    · rintro ⟨u, h1, h2, h3⟩
      cases u with
      | nil => simp at h2
      | cons z u =>
        obtain ⟨rfl, rfl⟩ := List.cons.inj h1
        exact ⟨(bytesNat u, r), (getLE_iff k _ _ _).2 ⟨u, rfl, by simpa using h2, rfl⟩, by
          simp [← h3, bytesNat, Nat.ofDigits_cons]⟩

/-- **C132** Which bytes are read as a float: those of a bit pattern, the lowest first, with the sign in the highest
bit, then the exponent, then the significand. -/
theorem C132_float_iff {w p : ℕ} (hp : 0 < p) (h8 : (w + p) % 8 = 0) (c : Fl → FBits w p) (b : List UInt8) (x : Fl)
    (r : List UInt8) : (Shape.float c).get b = some (.float x, r) ↔ ∃ (u : List UInt8) (k : FBits w p),
      b = u ++ r ∧ 8 * u.length = w + p ∧ x = k.denotes ∧
      bytesNat u = (if k.neg then 1 else 0) * 2 ^ (w + p - 1) + k.exp.val * 2 ^ (p - 1) + k.man.val := by
  have hcode : ∀ k : FBits w p,
      (if k.neg then 1 else 0) * 2 ^ (w + p - 1) + k.exp.val * 2 ^ (p - 1) + k.man.val = code k := by
    intro k
    unfold code
    rw [show w + p - 1 = w + (p - 1) by omega]
    cases k.neg <;> simp
  simp only [hcode, Shape.float, Option.map_eq_some_iff]
  constructor
  · rintro ⟨⟨n, r'⟩, h1, h2⟩
    simp only [Prod.mk.injEq, Data.float.injEq] at h2
    obtain ⟨rfl, rfl⟩ := h2
    obtain ⟨u, rfl, g1, g2⟩ := (getLE_iff _ _ _ _).1 h1
    refine ⟨u, ofCode n, rfl, by omega, rfl, ?_⟩
    rw [g2]
    symm
    apply code_ofCode hp
    rw [← g2]
    calc bytesNat u < 256 ^ u.length := by
          have := Nat.ofDigits_lt_base_pow_length (b := 256) (l := u.map UInt8.toNat) (by decide)
            (by simp only [List.mem_map]; rintro _ ⟨y, _, rfl⟩; exact y.toNat_lt)
          simpa [bytesNat] using this
      _ = 2 ^ (w + p) := by rw [show (256 : ℕ) = 2 ^ 8 from rfl, ← pow_mul, show 8 * u.length = w + p by omega]
  · rintro ⟨u, k, rfl, g1, rfl, g2⟩
    exact ⟨(code k, r), (getLE_iff _ _ _ _).2 ⟨u, rfl, by omega, g2⟩, by simp [ofCode_code]⟩

/-- **C132** Which bytes are read as a string: the number of its bytes in UTF-8 and these. -/
theorem C132_string_iff (b : List UInt8) (s : String) (r : List UInt8) :
    Shape.str.get b = some (.str s, r) ↔
      getNat 64 b = some (s.toByteArray.data.toList.length, s.toByteArray.data.toList ++ r) := by
  constructor
  · intro h
    obtain ⟨s', _, h1, _, _, _, h2⟩ := Shape.str_get h
    cases h1
    exact h2
  · exact Shape.str_get_of

theorem C132_string : Shape.str.For Codec.string (fun s => s.toByteArray.data.toList.length < 2 ^ 64) :=
  ⟨Shape.str_lawful, fun x hx => ⟨_, by simp only [Shape.str, Codec.string, hx, if_true]; rfl⟩⟩

section
variable {t : IntTy} (ht : Width t.bits)
include ht

theorem C132_frac : (Shape.frac t).For (Codec.frac fmt t) (Codec.FracOf t) := by
  refine ⟨Shape.tuple_lawful (by simp [Shape.int_lawful ht]), ?_⟩
  rintro x ⟨h1, h2, _⟩
  exact ⟨_, by simp [Shape.frac, Shape.tuple, Codec.frac, Shape.putAll, Shape.int, Codec.int, h1, h2]; rfl⟩

theorem C132_statInt : (Shape.statInt t).For (Codec.statInt fmt t) (fun x =>
    t.InRange x.addend ∧ t.InRange x.min ∧ t.InRange x.max ∧ t.InRange x.mult) := by
  refine ⟨Shape.tuple_lawful (by simp [Shape.int_lawful ht]), ?_⟩
  rintro x ⟨h1, h2, h3, h4⟩
  exact ⟨_, by
    simp [Shape.statInt, Shape.tuple, Codec.statInt, Shape.putAll, Shape.int, Codec.int, serStruct, h1, h2, h3, h4]; rfl⟩

theorem C132_statIntFraction : (Shape.statIntFraction t).For (Codec.statIntFraction fmt t) (fun x =>
    t.InRange x.addend ∧ t.InRange x.min ∧ t.InRange x.max ∧ Codec.FracOf t x.mult) := by
  refine ⟨Shape.tuple_lawful (by simp [Shape.int_lawful ht, Shape.unit_lawful, (C132_frac ht).1]), ?_⟩
  rintro x ⟨h1, h2, h3, h4⟩
  obtain ⟨b, hb⟩ := (C132_frac ht).2 _ h4
  exact ⟨_, by
    simp [Shape.statIntFraction, Shape.tuple, Codec.statIntFraction, Shape.putAll, Shape.int, Codec.int, serStruct,
      h1, h2, h3, hb, Shape.unit, Codec.phantom]; rfl⟩

theorem C132_statIntFloatMul {F : Type} {s : Shape} {k : Codec F} {P : F → Prop} (hs : s.For k P) :
    (Shape.statIntFloatMul t s).For (Codec.statIntFloatMul fmt t k) (fun x =>
      t.InRange x.addend ∧ t.InRange x.min ∧ t.InRange x.max ∧ P x.mult) := by
  refine ⟨Shape.tuple_lawful (by simp [Shape.int_lawful ht, Shape.unit_lawful, hs.1]), ?_⟩
  rintro x ⟨h1, h2, h3, h4⟩
  obtain ⟨b, hb⟩ := hs.2 _ h4
  exact ⟨_, by
    simp [Shape.statIntFloatMul, Shape.tuple, Codec.statIntFloatMul, Shape.putAll, Shape.int, Codec.int, serStruct,
      h1, h2, h3, hb, Shape.unit, Codec.phantom]; rfl⟩

theorem C132_statIntPercentAdditive :
    (Shape.statIntPercentAdditive t).For (Codec.statIntPercentAdditive fmt t) (fun x =>
      t.InRange x.addend ∧ t.InRange x.mult ∧ t.InRange x.min ∧ t.InRange x.max) := by
  refine ⟨Shape.tuple_lawful (by simp [Shape.int_lawful ht, Shape.unit_lawful]), ?_⟩
  rintro x ⟨h1, h2, h3, h4⟩
  exact ⟨_, by
    simp [Shape.statIntPercentAdditive, Shape.tuple, Codec.statIntPercentAdditive, Shape.putAll, Shape.int, Codec.int,
      serStruct, h1, h2, h3, h4, Shape.unit, Codec.phantom]; rfl⟩

theorem C132_statIntPercent : (Shape.statIntPercent t).For (Codec.statIntPercent fmt t) (fun x =>
    t.InRange x.addend ∧ Codec.FracOf t x.mult ∧ t.InRange x.min ∧ t.InRange x.max) := by
  refine ⟨Shape.tuple_lawful (by simp [Shape.int_lawful ht, Shape.unit_lawful, (C132_frac ht).1]), ?_⟩
  rintro x ⟨h1, h2, h3, h4⟩
  obtain ⟨b, hb⟩ := (C132_frac ht).2 _ h2
  exact ⟨_, by
    simp [Shape.statIntPercent, Shape.tuple, Codec.statIntPercent, Shape.putAll, Shape.int, Codec.int, serStruct,
      h1, hb, h3, h4, Shape.unit, Codec.phantom]; rfl⟩
end

section
variable {F : Type} {s : Shape} {k : Codec F} {P : F → Prop} (hs : s.For k P)
include hs

theorem C132_statFloat :
    (Shape.statFloat s).For (Codec.statFloat fmt k) (fun x => P x.addend ∧ P x.min ∧ P x.max ∧ P x.mult) := by
  refine ⟨Shape.tuple_lawful (by simp [hs.1]), ?_⟩
  rintro x ⟨h1, h2, h3, h4⟩
  obtain ⟨_, h1⟩ := hs.2 _ h1
  obtain ⟨_, h2⟩ := hs.2 _ h2
  obtain ⟨_, h3⟩ := hs.2 _ h3
  obtain ⟨_, h4⟩ := hs.2 _ h4
  exact ⟨_, by simp [Shape.statFloat, Shape.tuple, Codec.statFloat, Shape.putAll, serStruct, h1, h2, h3, h4]; rfl⟩

theorem C132_statFloatAdditive :
    (Shape.statFloat s).For (Codec.statFloatAdditive fmt k) (fun x => P x.addend ∧ P x.min ∧ P x.max ∧ P x.mult) := by
  refine ⟨Shape.tuple_lawful (by simp [hs.1]), ?_⟩
  rintro x ⟨h1, h2, h3, h4⟩
  obtain ⟨_, h1⟩ := hs.2 _ h1
  obtain ⟨_, h2⟩ := hs.2 _ h2
  obtain ⟨_, h3⟩ := hs.2 _ h3
  obtain ⟨_, h4⟩ := hs.2 _ h4
  exact ⟨_, by
    simp [Shape.statFloat, Shape.tuple, Codec.statFloatAdditive, Shape.putAll, serStruct, h1, h2, h3, h4]; rfl⟩

theorem C132_statMult : (Shape.statMult s).For (Codec.statMult fmt k) (fun x => P x.min ∧ P x.max ∧ P x.mult) := by
  refine ⟨Shape.tuple_lawful (by simp [hs.1]), ?_⟩
  rintro x ⟨h1, h2, h3⟩
  obtain ⟨_, h1⟩ := hs.2 _ h1
  obtain ⟨_, h2⟩ := hs.2 _ h2
  obtain ⟨_, h3⟩ := hs.2 _ h3
  exact ⟨_, by simp [Shape.statMult, Shape.tuple, Codec.statMult, Shape.putAll, serStruct, h1, h2, h3]; rfl⟩

theorem C132_statFlags : (Shape.two s).For (Codec.statFlags fmt k) (fun x => P x.not ∧ P x.or) := by
  refine ⟨Shape.tuple_lawful (by simp [hs.1]), ?_⟩
  rintro x ⟨h1, h2⟩
  obtain ⟨_, h1⟩ := hs.2 _ h1
  obtain ⟨_, h2⟩ := hs.2 _ h2
  exact ⟨_, by simp [Shape.two, Shape.tuple, Codec.statFlags, Shape.putAll, serStruct, h1, h2]; rfl⟩

theorem C132_qualifier : (Shape.two s).For (Codec.qualifier fmt k) (fun x => P x.anyOf ∧ P x.allOf) := by
  refine ⟨Shape.tuple_lawful (by simp [hs.1]), ?_⟩
  rintro x ⟨h1, h2⟩
  obtain ⟨_, h1⟩ := hs.2 _ h1
  obtain ⟨_, h2⟩ := hs.2 _ h2
  exact ⟨_, by simp [Shape.two, Shape.tuple, Codec.qualifier, Shape.putAll, serStruct, h1, h2]; rfl⟩

theorem C132_prioritized :
    (Shape.prioritized s).For (Codec.prioritized fmt k) (fun x => P x.value ∧ IntTy.i32.InRange x.priority) := by
  refine ⟨Shape.tuple_lawful (by
    simp only [List.mem_cons, List.not_mem_nil, or_false, forall_eq_or_imp, forall_eq]
    exact ⟨hs.1, Shape.int_lawful (by simp [Width, IntTy.i32])⟩), ?_⟩
  rintro x ⟨h1, h2⟩
  obtain ⟨_, h1⟩ := hs.2 _ h1
  exact ⟨_, by
    simp [Shape.prioritized, Shape.tuple, Codec.prioritized, Shape.putAll, serStruct, h1, Shape.int, Codec.int, h2]; rfl⟩

theorem C132_statOnce : (Shape.statOnce s).For (Codec.statOnce fmt k) (fun x => ∀ y, x = .found y → P y) := by
  refine ⟨Shape.variants_lawful (by simp) (by simp [hs.1]), ?_⟩
  rintro x hx
  cases x with
  | notFound => exact ⟨_, rfl⟩
  | foundMultiple => exact ⟨_, rfl⟩
  | found y =>
    obtain ⟨_, h1⟩ := hs.2 _ (hx y rfl)
    exact ⟨_, by simp [Shape.statOnce, Shape.variants, Codec.statOnce, Codec.tag, h1]; rfl⟩
end

theorem C132_statExists : Shape.bool.For Codec.statExists (fun _ => True) :=
  ⟨Shape.bool_lawful, fun _ _ => ⟨_, rfl⟩⟩

theorem C132_statOp {V : Type} {D : StatValue V} (k : Codec.Operands D) {a m b o x : Shape} {pa : D.AddT → Prop}
    {pm : D.MulT → Prop} {pb : D.BitT → Prop} {po : D.BoundsT → Prop} {px : D.BaseT → Prop}
    (ha : a.For k.add pa) (hm : m.For k.mul pm) (hb : b.For k.bit pb) (ho : o.For k.bounds po) (hx : x.For k.base px) :
    (Shape.statOp a m b o x).For (Codec.statOp fmt k) (Codec.OpOk pa pm pb po px) := by
  refine ⟨Shape.variants_lawful (by simp) (by
    intro s hs
    simp only [List.mem_cons, Option.some.injEq, List.not_mem_nil, or_false] at hs
    rcases hs with rfl | rfl | rfl | rfl | rfl | rfl | rfl
    · exact ha.1
    · exact hm.1
    · exact hb.1
    · exact hb.1
    · exact ho.1
    · exact ho.1
    · exact hx.1), ?_⟩
  rintro y hy
  cases y with
  | add y => obtain ⟨_, h⟩ := ha.2 y hy; exact ⟨_, by simp [Shape.statOp, Shape.variants, Codec.statOp, Codec.tag, h]; rfl⟩
  | mul y => obtain ⟨_, h⟩ := hm.2 y hy; exact ⟨_, by simp [Shape.statOp, Shape.variants, Codec.statOp, Codec.tag, h]; rfl⟩
  | or y => obtain ⟨_, h⟩ := hb.2 y hy; exact ⟨_, by simp [Shape.statOp, Shape.variants, Codec.statOp, Codec.tag, h]; rfl⟩
  | not y => obtain ⟨_, h⟩ := hb.2 y hy; exact ⟨_, by simp [Shape.statOp, Shape.variants, Codec.statOp, Codec.tag, h]; rfl⟩
  | min y => obtain ⟨_, h⟩ := ho.2 y hy; exact ⟨_, by simp [Shape.statOp, Shape.variants, Codec.statOp, Codec.tag, h]; rfl⟩
  | max y => obtain ⟨_, h⟩ := ho.2 y hy; exact ⟨_, by simp [Shape.statOp, Shape.variants, Codec.statOp, Codec.tag, h]; rfl⟩
  | base y => obtain ⟨_, h⟩ := hx.2 y hy; exact ⟨_, by simp [Shape.statOp, Shape.variants, Codec.statOp, Codec.tag, h]; rfl⟩

/-- **C132** Numbers that fit are written, the fields of a type one after the other in the order of their
declaration, and markers take no bytes. -/
theorem C132_fields {t : IntTy} :
    (∀ i, (Shape.int t).put ((Codec.int t).ser i) = if t.InRange i then some (putInt t i) else none) ∧
    (∀ a b c d, t.InRange a → t.InRange b → t.InRange c → t.InRange d →
      (Shape.statInt t).put ((Codec.statInt fmt t).ser ⟨a, b, c, d⟩) =
        some (putInt t a ++ putInt t b ++ putInt t c ++ putInt t d) ∧
      (Shape.statIntPercentAdditive t).put ((Codec.statIntPercentAdditive fmt t).ser
          { addend := a, mult := b, min := c, max := d }) =
        some (putInt t a ++ putInt t b ++ putInt t c ++ putInt t d)) ∧
    (∀ a b c n d, t.InRange a → t.InRange b → t.InRange c → t.InRange n → t.InRange d →
      (Shape.statIntFraction t).put ((Codec.statIntFraction fmt t).ser
          { addend := a, min := b, max := c, mult := ⟨n, d⟩ }) =
        some (putInt t a ++ putInt t b ++ putInt t c ++ putInt t n ++ putInt t d) ∧
      (Shape.statIntPercent t).put ((Codec.statIntPercent fmt t).ser
          { addend := a, mult := ⟨n, d⟩, min := b, max := c }) =
        some (putInt t a ++ putInt t n ++ putInt t d ++ putInt t b ++ putInt t c)) := by
  refine ⟨fun i => rfl, fun a b c d ha hb hc hd => ⟨?_, ?_⟩, fun a b c n d ha hb hc hn hd => ⟨?_, ?_⟩⟩
  · simp [Shape.statInt, Shape.tuple, Codec.statInt, Shape.putAll, Shape.int, Codec.int, serStruct, ha, hb, hc, hd]
  · simp [Shape.statIntPercentAdditive, Shape.tuple, Codec.statIntPercentAdditive, Shape.putAll, Shape.int, Codec.int,
      serStruct, Shape.unit, Codec.phantom, ha, hb, hc, hd]
  · simp [Shape.statIntFraction, Shape.tuple, Codec.statIntFraction, Shape.putAll, Shape.int, Codec.int, serStruct,
      Shape.frac, Codec.frac, Shape.unit, Codec.phantom, ha, hb, hc, hn, hd]
  · simp [Shape.statIntPercent, Shape.tuple, Codec.statIntPercent, Shape.putAll, Shape.int, Codec.int, serStruct,
      Shape.frac, Codec.frac, Shape.unit, Codec.phantom, ha, hb, hc, hn, hd]

/-- **C132** The same for types over another type. -/
theorem C132_parts {F : Type} {s : Shape} {k : Codec F} (g : F → List UInt8) (hg : ∀ x, s.put (k.ser x) = some (g x)) :
    (∀ a b c d, (Shape.statFloat s).put ((Codec.statFloat fmt k).ser ⟨a, b, c, d⟩) =
      some (g a ++ g b ++ g c ++ g d)) ∧
    (∀ a b c d, (Shape.statFloat s).put ((Codec.statFloatAdditive fmt k).ser
      { addend := a, mult := d, min := b, max := c }) = some (g a ++ g b ++ g c ++ g d)) ∧
    (∀ a b c, (Shape.statMult s).put ((Codec.statMult fmt k).ser { min := a, max := b, mult := c }) =
      some (g a ++ g b ++ g c)) ∧
    (∀ a b, (Shape.two s).put ((Codec.statFlags fmt k).ser { not := a, or := b }) = some (g a ++ g b)) ∧
    (∀ a b, (Shape.two s).put ((Codec.qualifier fmt k).ser { anyOf := a, allOf := b }) = some (g a ++ g b)) ∧
    (∀ a, (Shape.statOnce s).put ((Codec.statOnce fmt k).ser (.found a)) = some (1 :: g a)) ∧
    (Shape.statOnce s).put ((Codec.statOnce fmt k).ser .notFound) = some [0] ∧
    (Shape.statOnce s).put ((Codec.statOnce fmt k).ser .foundMultiple) = some [2] := by
  have h1 : putNat 32 1 = [1] := by decide
  have h0 : putNat 32 0 = [0] := by decide
  have h2 : putNat 32 2 = [2] := by decide
  refine ⟨?_, ?_, ?_, ?_, ?_, ?_, ?_, ?_⟩ <;>
    simp [Shape.statFloat, Shape.statMult, Shape.two, Shape.statOnce, Shape.tuple, Shape.variants, Shape.putAll,
      Codec.statFloat, Codec.statFloatAdditive, Codec.statMult, Codec.statFlags, Codec.qualifier, Codec.statOnce,
      Codec.tag, serStruct, hg, h0, h1, h2]

/-- C132: such a type: flags of 8 bits -/
example : ∃ g : BitVec 8 → List UInt8, (∀ x, (Shape.int ⟨8, false⟩).put ((Codec.bits 8).ser x) = some (g x)) ∧
    g 200 = [200] := by
  have h := (C132_bits (n := 8) (by simp [Width])).2
  exact ⟨fun x => (h x trivial).choose, fun x => (h x trivial).choose_spec, by
    have h1 := (h 200 trivial).choose_spec
    have h2 : (Shape.int ⟨8, false⟩).put ((Codec.bits 8).ser 200) = some [200] := by decide
    exact Option.some.inj (h1.symm.trans h2)⟩

/-- **C132** An operation is its number in the order of declaration, then its operand. -/
theorem C132_tags {V : Type} {D : StatValue V} (k : Codec.Operands D) {a m b o x : Shape} (c : List UInt8) :
    (∀ y, a.put (k.add.ser y) = some c →
      (Shape.statOp a m b o x).put ((Codec.statOp fmt k).ser (.add y)) = some (0 :: c)) ∧
    (∀ y, m.put (k.mul.ser y) = some c →
      (Shape.statOp a m b o x).put ((Codec.statOp fmt k).ser (.mul y)) = some (1 :: c)) ∧
    (∀ y, b.put (k.bit.ser y) = some c →
      (Shape.statOp a m b o x).put ((Codec.statOp fmt k).ser (.or y)) = some (2 :: c)) ∧
    (∀ y, b.put (k.bit.ser y) = some c →
      (Shape.statOp a m b o x).put ((Codec.statOp fmt k).ser (.not y)) = some (3 :: c)) ∧
    (∀ y, o.put (k.bounds.ser y) = some c →
      (Shape.statOp a m b o x).put ((Codec.statOp fmt k).ser (.min y)) = some (4 :: c)) ∧
    (∀ y, o.put (k.bounds.ser y) = some c →
      (Shape.statOp a m b o x).put ((Codec.statOp fmt k).ser (.max y)) = some (5 :: c)) ∧
    (∀ y, x.put (k.base.ser y) = some c →
      (Shape.statOp a m b o x).put ((Codec.statOp fmt k).ser (.base y)) = some (6 :: c)) := by
  have h0 : putNat 32 0 = [0] := by decide
  have h1 : putNat 32 1 = [1] := by decide
  have h2 : putNat 32 2 = [2] := by decide
  have h3 : putNat 32 3 = [3] := by decide
  have h4 : putNat 32 4 = [4] := by decide
  have h5 : putNat 32 5 = [5] := by decide
  have h6 : putNat 32 6 = [6] := by decide
  refine ⟨?_, ?_, ?_, ?_, ?_, ?_, ?_⟩ <;> intro y h <;>
    simp [Shape.statOp, Shape.variants, Codec.statOp, Codec.tag, h, h0, h1, h2, h3, h4, h5, h6]

/-! ### maps -/

variable {E : Env} {Q : Type} {X : Serde E Q} {W : Shapes E}

theorem readValue_grows (hW : W.Lawful) (s : StatInst E) : Grows (readValue X W s) := by
  intro b t
  unfold readValue
  by_cases hs : X.supported s.vt = true
  · simp only [if_pos hs, validate_eq]
    by_cases hl : Storable (E.layout s.ty)
    · simp only [if_pos hl, Res.bind_ok]
      cases hg : (W.val s.ty).get b with
      | none => simp
      | some x =>
        obtain ⟨d, b'⟩ := x
        simp only [(hW.val _).grows _ _ _ t hg]
        cases hd : X.de s.ty d with
        | none => simp
        | some v =>
          simp only [Buf.from_eq, if_pos hl, Res.bind_ok]
          simp
    · simp [if_neg hl]
  · simp [if_neg hs]

theorem readThird_grows (hW : W.Lawful) (n : Nat) (q : Qualifier Q) (s : StatInst E) :
    Grows (readThird X W n q s) := by
  intro b t
  unfold readThird
  by_cases hn : n = 0
  · simp [hn]
  · simp only [if_neg hn]
    obtain ⟨h1, h2⟩ := readValue_grows (X := X) hW s b t
    cases hr : readValue X W s b with
    | error e => simp [h2 e hr]
    | ok o =>
      cases o with
      | none => simp
      | some x =>
        obtain ⟨v, b'⟩ := x
        rw [h1 v b' hr]
        simp

theorem readSecond_grows (hW : W.Lawful) (sc : DeScope E) (n : Nat) (q : Qualifier Q) :
    Grows (readSecond X W sc n q) := by
  intro b t
  unfold readSecond
  by_cases hn : n = 0
  · simp [hn]
  · simp only [if_neg hn]
    cases hg : Shape.str.get b with
    | none => simp
    | some x =>
      obtain ⟨d, b'⟩ := x
      simp only [Shape.str_lawful.grows _ _ _ t hg]
      cases hd : Serde.deStat sc d with
      | error e => simp
      | ok o =>
        cases o with
        | none => simp
        | some s =>
          simp only [Res.bind_ok]
          exact readThird_grows hW _ q s b' t

theorem readEntry_grows (hW : W.Lawful) (sc : DeScope E) : Grows (readEntry X W sc) := by
  intro b t
  unfold readEntry
  cases hn : getNat 64 b with
  | none => simp
  | some x =>
    obtain ⟨n, b₁⟩ := x
    simp only [getNat_grows t hn]
    by_cases h0 : n = 0
    · simp [h0]
    · simp only [if_neg h0]
      cases hg : W.qual.get b₁ with
      | none => simp
      | some x =>
        obtain ⟨d, b₂⟩ := x
        simp only [hW.qual.grows _ _ _ t hg]
        cases hd : X.deQ d with
        | none => simp
        | some q => exact readSecond_grows hW sc _ q b₂ t

theorem readEntries_grows (hW : W.Lawful) (sc : DeScope E) : ∀ k, Grows (readEntries X W sc k)
  | 0, b, t => by simp [readEntries]
  | k + 1, b, t => by
    unfold readEntries
    obtain ⟨h1, h2⟩ := readEntry_grows (X := X) hW sc b t
    cases hr : readEntry X W sc b with
    | error e => simp [h2 e hr]
    | ok o =>
      cases o with
      | none => simp
      | some x =>
        obtain ⟨e, b'⟩ := x
        rw [h1 e b' hr]
        simp only [Res.bind_ok]
        obtain ⟨h3, h4⟩ := readEntries_grows hW sc k b' t
        cases hr' : readEntries X W sc k b' with
        | error e => simp [h4 e hr']
        | ok o =>
          cases o with
          | none => simp
          | some x =>
            obtain ⟨l, b''⟩ := x
            rw [h3 l b'' hr']
            simp

/-- **C132** What is loaded from bytes, and whether loading panics, does not depend on the bytes that follow. -/
theorem C132_follows (hW : W.Lawful) (sc : DeScope E) : Grows (readMap X W sc) := by
  intro b t
  unfold readMap
  cases hn : getNat 64 b with
  | none => simp
  | some x =>
    obtain ⟨n, b₁⟩ := x
    simp only [getNat_grows t hn]
    exact readEntries_grows hW sc n b₁ t

theorem readEntry_writeEntry (hW : W.Lawful) {reg : Registry E} {e : Entry E Q (Buf E)} (h : Saves X W reg e) :
    ∃ b, writeEntry X W e = .ok (some b) ∧ ∀ r, readEntry X W (.registry reg) (b ++ r) = .ok (some (e, r)) := by
  obtain ⟨⟨x, hx, hs, hv, bv, hbv⟩, ⟨hq, bq, hbq⟩, hsup, n, hn, hreg, hlen⟩ := h
  obtain ⟨bs, hbs⟩ := C132_string.2 n hlen
  refine ⟨putNat 64 3 ++ (bq ++ (bs ++ bv)), ?_, ?_⟩
  · simp only [Codec.string] at hbs
    simp only [writeEntry, hn, Res.bind_ok, Serde.asSerialize, hsup, if_true, hx, Buf.read_val hs, hbq, hbs, hbv]
  · intro r
    simp only [Codec.string] at hbs
    simp only [readEntry, List.append_assoc, getNat_putNat (n := 64) (x := 3) (by decide) (by decide)]
    rw [if_neg (by decide)]
    simp only [hW.qual.roundtrip _ _ _ hbq, hq, readSecond]
    rw [if_neg (by decide)]
    simp only [Shape.str_lawful.roundtrip _ _ _ hbs, Serde.deStat, hreg, Res.bind_ok, readThird]
    rw [if_neg (by decide)]
    simp only [readValue, hsup, if_true, validate_eq, hs, Res.bind_ok, (hW.val _).roundtrip _ _ _ hbv, hv, Buf.from_eq]
    have h4 : (⟨e.stat, e.qual, .val e.stat.ty x⟩ : Entry E Q (Buf E)) = e := by
      cases e; simp only at hx; rw [hx]
    simp [h4]

theorem readEntries_writeEntries (hW : W.Lawful) {reg : Registry E} : ∀ {m : List (Entry E Q (Buf E))},
    (∀ e ∈ m, Saves X W reg e) → ∃ b, writeEntries X W m = .ok (some b) ∧
      ∀ r, readEntries X W (.registry reg) m.length (b ++ r) = .ok (some (m, r))
  | [], _ => ⟨[], rfl, fun r => rfl⟩
  | e :: m, h => by
    obtain ⟨b, h1, h2⟩ := readEntry_writeEntry hW (h e (by simp))
    obtain ⟨c, h3, h4⟩ := readEntries_writeEntries hW (m := m) (fun y hy => h y (by simp [hy]))
    refine ⟨b ++ c, by simp [writeEntries, h1, h3], fun r => ?_⟩
    simp only [List.length_cons, readEntries, List.append_assoc, h2, Res.bind_ok, h4]
    rfl

/-- **C132** A map all of whose entries can be saved is written as bytes, and is read back from them, whatever follows
them; what follows is left. -/
theorem C132_saved (hW : W.Lawful) {reg : Registry E} {m : StatMap E Q} (h : ∀ e ∈ m, Saves X W reg e)
    (hm : m.length < 2 ^ 64) : ∃ b, writeMap X W m = .ok (some b) ∧
      ∀ r, readMap X W (.registry reg) (b ++ r) = .ok (some (m, r)) := by
  obtain ⟨b, h1, h2⟩ := readEntries_writeEntries hW h
  refine ⟨putNat 64 m.length ++ b, by simp [writeMap, h1], fun r => ?_⟩
  simp only [readMap, List.append_assoc, getNat_putNat (n := 64) (by decide) hm]
  exact h2 r

/-- **C132** No part of a saved map that misses some of its end can be loaded: this is an error, not a panic and not
another map. -/
theorem C132_truncated (hW : W.Lawful) {reg : Registry E} {m : StatMap E Q} (h : ∀ e ∈ m, Saves X W reg e)
    (hm : m.length < 2 ^ 64) {b : List UInt8} (hb : writeMap X W m = .ok (some b)) (c t : List UInt8)
    (hc : b = c ++ t) (ht : t ≠ []) : readMap X W (.registry reg) c = .ok none := by
  obtain ⟨b', h1, h2⟩ := C132_saved hW h hm
  rw [hb] at h1
  simp only [Except.ok.injEq, Option.some.injEq] at h1
  subst h1
  have h3 := h2 []
  rw [List.append_nil, hc] at h3
  obtain ⟨g1, g2⟩ := C132_follows (X := X) hW (.registry reg) c t
  cases hr : readMap X W (.registry reg) c with
  | error e => rw [g2 e hr] at h3; cases h3
  | ok o =>
    cases o with
    | none => rfl
    | some x =>
      obtain ⟨m', r⟩ := x
      rw [g1 m' r hr] at h3
      simp only [Except.ok.injEq, Option.some.injEq, Prod.mk.injEq, List.append_eq_nil_iff] at h3
      exact absurd h3.2.2 ht

/-- **C132** Different maps are never written as the same bytes, nor as bytes of which one begin with the other. -/
theorem C132_distinct (hW : W.Lawful) {reg : Registry E} {m m' : StatMap E Q} (h : ∀ e ∈ m, Saves X W reg e)
    (h' : ∀ e ∈ m', Saves X W reg e) (hm : m.length < 2 ^ 64) (hm' : m'.length < 2 ^ 64) {b b' r r' : List UInt8}
    (hb : writeMap X W m = .ok (some b)) (hb' : writeMap X W m' = .ok (some b')) (he : b ++ r = b' ++ r') :
    m = m' ∧ r = r' := by
  obtain ⟨c, h1, h2⟩ := C132_saved hW h hm
  obtain ⟨c', h1', h2'⟩ := C132_saved hW h' hm'
  rw [hb] at h1
  rw [hb'] at h1'
  simp only [Except.ok.injEq, Option.some.injEq] at h1 h1'
  subst h1 h1'
  have := (h2 r).symm.trans ((congrArg _ he).trans (h2' r'))
  simpa using this

/-- **C132** Which bytes are accepted as an entry, and as which.  (For stats that support loading and whose values can be
stored; for the others, loading panics.) -/
theorem C132_entry_iff (reg : Registry E) (hsup : ∀ s, X.supported s = true) (hst : ∀ u, Storable (E.layout u))
    (b : List UInt8) :
    ∃ o, readEntry X W (.registry reg) b = .ok o ∧ ∀ e r, o = some (e, r) ↔ BeginsWith X W reg b e r := by
  have no : (∀ e r, ¬ BeginsWith X W reg b e r) →
      ∃ o, (Except.ok none : Res (Option (Entry E Q (Buf E) × List UInt8))) = .ok o ∧
        ∀ e r, o = some (e, r) ↔ BeginsWith X W reg b e r :=
    fun h => ⟨none, rfl, fun e r => ⟨fun h => (nomatch h), fun h' => absurd h' (h e r)⟩⟩
  unfold readEntry
  cases hn : getNat 64 b with
  | none =>
    refine no ?_
    rintro e r ⟨n, b₁, dq, b₂, name, b₃, dv, x, g1, _⟩
    rw [hn] at g1; cases g1
  | some x =>
    obtain ⟨n, b₁⟩ := x
    dsimp only
    by_cases h0 : n = 0
    · rw [if_pos h0]
      refine no ?_
      rintro e r ⟨n, b₁, dq, b₂, name, b₃, dv, x, g1, g2, _⟩
      rw [hn] at g1; cases g1; omega
    rw [if_neg h0]
    cases hq : W.qual.get b₁ with
    | none =>
      refine no ?_
      rintro e r ⟨n, b₁, dq, b₂, name, b₃, dv, x, g1, g2, g3, _⟩
      rw [hn] at g1; cases g1
      rw [hq] at g3; cases g3
    | some y =>
      obtain ⟨dq, b₂⟩ := y
      dsimp only
      cases hdq : X.deQ dq with
      | none =>
        refine no ?_
        rintro e r ⟨n, b₁, dq, b₂, name, b₃, dv, x, g1, g2, g3, g4, _⟩
        rw [hn] at g1; cases g1
        rw [hq] at g3; cases g3
        rw [hdq] at g4; cases g4
      | some q =>
        dsimp only
        unfold readSecond
        by_cases h1 : n - 1 = 0
        · rw [if_pos h1]
          refine no ?_
          rintro e r ⟨n, b₁, dq, b₂, name, b₃, dv, x, g1, g2, _⟩
          rw [hn] at g1; cases g1; omega
        rw [if_neg h1]
        cases hs : Shape.str.get b₂ with
        | none =>
          refine no ?_
          rintro e r ⟨n, b₁, dq, b₂, name, b₃, dv, x, g1, g2, g3, g4, g5, _⟩
          rw [hn] at g1; cases g1
          rw [hq] at g3; cases g3
          rw [hs] at g5; cases g5
        | some z =>
          obtain ⟨ds, b₃⟩ := z
          obtain ⟨name, _, rfl, _⟩ := Shape.str_get hs
          simp only [Serde.deStat, Res.bind_ok]
          cases hr : reg name with
          | none =>
            refine no ?_
            rintro e r ⟨n, b₁, dq, b₂, name, b₃, dv, x, g1, g2, g3, g4, g5, g6, _⟩
            rw [hn] at g1; cases g1
            rw [hq] at g3; cases g3
            rw [hs] at g5; cases g5
            rw [hr] at g6; cases g6
          | some s =>
            dsimp only
            unfold readThird
            by_cases h2 : n - 1 - 1 = 0
            · rw [if_pos h2]
              refine no ?_
              rintro e r ⟨n, b₁, dq, b₂, name, b₃, dv, x, g1, g2, _⟩
              rw [hn] at g1; cases g1; omega
            rw [if_neg h2]
            simp only [readValue, hsup, if_true, validate_eq, hst, Res.bind_ok]
            cases hv : (W.val s.ty).get b₃ with
            | none =>
              refine no ?_
              rintro ⟨es, eq, eb⟩ r ⟨n, b₁, dq, b₂, name, b₃, dv, x, g1, g2, g3, g4, g5, g6, g7, _⟩
              rw [hn] at g1; cases g1
              rw [hq] at g3; cases g3
              rw [hs] at g5; cases g5
              rw [hr] at g6; cases g6
              rw [hv] at g7; cases g7
            | some y =>
              obtain ⟨dv, r⟩ := y
              dsimp only
              cases hd : X.de s.ty dv with
              | none =>
                refine no ?_
                rintro ⟨es, eq, eb⟩ r ⟨n, b₁, dq, b₂, name, b₃, dv, x, g1, g2, g3, g4, g5, g6, g7, g8, _⟩
                rw [hn] at g1; cases g1
                rw [hq] at g3; cases g3
                rw [hs] at g5; cases g5
                rw [hr] at g6; cases g6
                rw [hv] at g7; cases g7
                rw [hd] at g8; cases g8
              | some x =>
                simp only [Buf.from_eq, hst, if_true, Res.bind_ok, Option.map_some]
                refine ⟨_, rfl, fun e r' => ⟨fun h => ?_, ?_⟩⟩
                · cases h
                  exact ⟨n, b₁, dq, b₂, name, b₃, dv, x, hn, by omega, hq, hdq, hs, hr, hv, hd, rfl⟩
                · obtain ⟨es, eq, eb⟩ := e
                  rintro ⟨n, b₁, dq, b₂, name, b₃, dv, x, g1, g2, g3, g4, g5, g6, g7, g8, g9⟩
                  rw [hn] at g1; cases g1
                  rw [hq] at g3; cases g3
                  rw [hdq] at g4; cases g4
                  rw [hs] at g5; cases g5
                  rw [hr] at g6; cases g6
                  rw [hv] at g7; cases g7
                  rw [hd] at g8; cases g8
                  simp only at g9
                  rw [g9]

theorem readEntries_iff (reg : Registry E) (hsup : ∀ s, X.supported s = true) (hst : ∀ u, Storable (E.layout u)) :
    ∀ (k : Nat) (b : List UInt8), ∃ o, readEntries X W (.registry reg) k b = .ok o ∧
      ∀ m r, o = some (m, r) ↔ m.length = k ∧ BeginsWithAll X W reg b m r
  | 0, b => ⟨some ([], b), rfl, fun m r => by
      constructor
      · intro h; cases h; exact ⟨rfl, rfl⟩
      · rintro ⟨h1, h2⟩
        rw [List.length_eq_zero_iff] at h1
        subst h1
        simp only [BeginsWithAll] at h2
        rw [h2]⟩
  | k + 1, b => by
    obtain ⟨o, h1, h2⟩ := C132_entry_iff (X := X) (W := W) reg hsup hst b
    cases o with
    | none =>
      refine ⟨none, by simp [readEntries, h1], fun m r => ⟨fun h => (nomatch h), ?_⟩⟩
      rintro ⟨hl, hb⟩
      cases m with
      | nil => simp at hl
      | cons e m =>
        obtain ⟨b', hb', _⟩ := hb
        exact (nomatch (h2 e b').2 hb')
    | some x =>
      obtain ⟨e, b'⟩ := x
      obtain ⟨o', h3, h4⟩ := readEntries_iff reg hsup hst k b'
      refine ⟨o'.map fun x => (e :: x.1, x.2), by simp [readEntries, h1, h3], fun m r => ?_⟩
      constructor
      · intro h
        obtain ⟨⟨l, r'⟩, h5, h6⟩ := Option.map_eq_some_iff.1 h
        simp only [Prod.mk.injEq] at h6
        obtain ⟨h7, h8⟩ := (h4 l r').1 h5
        rw [← h6.1, ← h6.2]
        exact ⟨by simp [h7], b', (h2 e b').1 rfl, h8⟩
      · rintro ⟨hl, hb⟩
        cases m with
        | nil => simp at hl
        | cons e' m =>
          obtain ⟨b'', hb', hb''⟩ := hb
          have := (h2 e' b'').2 hb'
          simp only [Option.some.injEq, Prod.mk.injEq] at this
          obtain ⟨rfl, rfl⟩ := this
          rw [(h4 m r).2 ⟨by simpa using hl, hb''⟩]
          rfl

/-- **C132** Loading arbitrary bytes never panics nor reads a wrong type, and accepts exactly the bytes that consist of a
number and as many entries.  (If all stats support loading and all values can be stored.) -/
theorem C132_accepted_iff (reg : Registry E) (hsup : ∀ s, X.supported s = true) (hst : ∀ u, Storable (E.layout u))
    (b : List UInt8) : ∃ o, readMap X W (.registry reg) b = .ok o ∧
      ∀ m r, o = some (m, r) ↔ ∃ b', getNat 64 b = some (m.length, b') ∧ BeginsWithAll X W reg b' m r := by
  unfold readMap
  cases hn : getNat 64 b with
  | none => exact ⟨none, rfl, fun m r => ⟨fun h => (nomatch h), fun ⟨_, h, _⟩ => (nomatch h)⟩⟩
  | some x =>
    obtain ⟨n, b₁⟩ := x
    obtain ⟨o, h1, h2⟩ := readEntries_iff (X := X) (W := W) reg hsup hst n b₁
    refine ⟨o, h1, fun m r => (h2 m r).trans ?_⟩
    constructor
    · rintro ⟨rfl, h⟩; exact ⟨b₁, rfl, h⟩
    · rintro ⟨b', h3, h4⟩
      simp only [Option.some.injEq, Prod.mk.injEq] at h3
      obtain ⟨rfl, rfl⟩ := h3
      exact ⟨rfl, h4⟩


theorem writeEntry_iff (hst : ∀ u, Storable (E.layout u)) {e : Entry E Q (Buf E)} (he : ∃ x, e.buf = .val e.stat.ty x)
    (b : List UInt8) : writeEntry X W e = .ok (some b) ↔ EntryBytes X W e b := by
  obtain ⟨x, hx⟩ := he
  have h3 : putNat 64 3 = [3] := by decide
  unfold EntryBytes
  constructor
  · intro h
    unfold writeEntry at h
    cases hn : e.stat.name with
    | error _ => simp [hn] at h
    | ok n =>
      by_cases hs : X.supported e.stat.vt = true
      · simp only [hn, Res.bind_ok, Serde.asSerialize, hs, if_true, hx, Buf.read_val (hst _)] at h
        cases hq : W.qual.put (X.serQ e.qual) with
        | none => simp [hq] at h
        | some bq =>
          cases hv : (W.val e.stat.ty).put (X.ser e.stat.ty x) with
          | none => simp [hq, hv] at h
          | some bv =>
            by_cases hl : n.toByteArray.data.toList.length < 2 ^ 64
            · simp only [hq, hv, Shape.str, hl, if_true, h3, Except.ok.injEq, Option.some.injEq] at h
              exact ⟨x, n, bq, bv, hx, hs, rfl, hl, rfl, hv, by simp [← h]⟩
            · simp only [hq, hv, Shape.str, hl, if_false, Except.ok.injEq, reduceCtorEq] at h
      · simp [hn, Serde.asSerialize, hs] at h
  · rintro ⟨y, n, bq, bv, hy, hs, hn, hl, hq, hv, rfl⟩
    simp only [writeEntry, hn, Res.bind_ok, Serde.asSerialize, hs, if_true, hy, Buf.read_val (hst _), hq, hv, Shape.str,
      hl, h3]
    simp

/-- **C132** The bytes of a map: the number of its entries, then the entries in order, each as `EntryBytes` says. -/
theorem C132_bytes (hst : ∀ u, Storable (E.layout u)) {m : StatMap E Q}
    (hm : ∀ e ∈ m, ∃ x, e.buf = .val e.stat.ty x) (b : List UInt8) :
    writeMap X W m = .ok (some b) ↔
      ∃ l, List.Forall₂ (EntryBytes X W) m l ∧ b = putNat 64 m.length ++ l.flatten := by
  have all : ∀ (m : StatMap E Q) (c : List UInt8), (∀ e ∈ m, ∃ x, e.buf = .val e.stat.ty x) →
      (writeEntries X W m = .ok (some c) ↔ ∃ l, List.Forall₂ (EntryBytes X W) m l ∧ c = l.flatten) := by
    intro m
    induction m with
    | nil =>
      intro c _
      simp only [writeEntries, Except.ok.injEq, Option.some.injEq, List.forall₂_nil_left_iff]
      constructor
      · rintro rfl; exact ⟨[], rfl, rfl⟩
      · rintro ⟨l, rfl, rfl⟩; rfl
    | cons e m ih =>
      intro c hm
      have he := writeEntry_iff (X := X) (W := W) hst (hm e (by simp))
      have hm' := fun c => ih c (fun y hy => hm y (by simp [hy]))
      constructor
      · intro h
        simp only [writeEntries] at h
        cases h1 : writeEntry X W e with
        | error _ => simp [h1] at h
        | ok o =>
          cases h2 : writeEntries X W m with
          | error _ => simp [h1, h2] at h
          | ok o' =>
            simp only [h1, h2, Res.bind_ok] at h
            cases o with
            | none => simp at h
            | some b₁ =>
              cases o' with
              | none => simp at h
              | some b₂ =>
                simp only [Except.ok.injEq, Option.some.injEq] at h
                obtain ⟨l, hl, rfl⟩ := (hm' b₂).1 h2
                exact ⟨b₁ :: l, .cons ((he b₁).1 h1) hl, by simp [← h]⟩
      · rintro ⟨l, hl, rfl⟩
        cases hl with
        | cons h1 h2 =>
          rename_i b₁ l
          simp [writeEntries, (he b₁).2 h1, (hm' _).2 ⟨l, h2, rfl⟩]
  simp only [writeMap]
  constructor
  · intro h
    cases h2 : writeEntries X W m with
    | error _ => simp [h2] at h
    | ok o =>
      cases o with
      | none => simp [h2] at h
      | some c =>
        simp only [h2, Res.bind_ok, Option.map_some, Except.ok.injEq, Option.some.injEq] at h
        obtain ⟨l, hl, rfl⟩ := (all m c hm).1 h2
        exact ⟨l, hl, h.symm⟩
  · rintro ⟨l, hl, rfl⟩
    simp [(all m _ hm).2 ⟨l, hl, rfl⟩]

/-! ### what bytes can do -/

theorem readEntry_abstract (sc : DeScope E) (b : List UInt8) :
    ∃ d, X.deEntry sc d = (readEntry X W sc b).map (Option.map Prod.fst) := by
  have no : ∃ d, X.deEntry sc d = (Except.ok none : Res (Option (Entry E Q (Buf E)))) := ⟨.unit, rfl⟩
  unfold readEntry
  cases hn : getNat 64 b with
  | none => exact no
  | some x =>
    obtain ⟨n, b₁⟩ := x
    dsimp only
    by_cases h0 : n = 0
    · rw [if_pos h0]; exact no
    rw [if_neg h0]
    cases hq : W.qual.get b₁ with
    | none => exact no
    | some y =>
      obtain ⟨dq, b₂⟩ := y
      dsimp only
      cases hdq : X.deQ dq with
      | none => exact no
      | some q =>
        dsimp only
        unfold readSecond
        by_cases h1 : n - 1 = 0
        · rw [if_pos h1]; exact no
        rw [if_neg h1]
        cases hs : Shape.str.get b₂ with
        | none => exact no
        | some z =>
          obtain ⟨ds, b₃⟩ := z
          dsimp only
          cases hd : Serde.deStat sc ds with
          | error e => exact ⟨.seq [dq, ds], by simp [Serde.deEntry, hdq, Serde.deSecond, hd, Except.map]⟩
          | ok o =>
            cases o with
            | none => exact no
            | some s =>
              simp only [Res.bind_ok]
              unfold readThird
              by_cases h2 : n - 1 - 1 = 0
              · rw [if_pos h2]; exact no
              rw [if_neg h2]
              by_cases hu : X.supported s.vt = true
              · by_cases hl : Storable (E.layout s.ty)
                · cases hv : (W.val s.ty).get b₃ with
                  | none =>
                    obtain ⟨d, hd⟩ := no
                    exact ⟨d, by simp [hd, readValue, hu, validate_eq, hl, hv, Except.map]⟩
                  | some y =>
                    obtain ⟨dv, r⟩ := y
                    cases hx : X.de s.ty dv with
                    | none =>
                      obtain ⟨d, hd⟩ := no
                      exact ⟨d, by simp [hd, readValue, hu, validate_eq, hl, hv, hx, Except.map]⟩
                    | some x =>
                      exact ⟨.seq [dq, ds, dv], by
                        simp [Serde.deEntry, hdq, Serde.deSecond, hd, Serde.deThird, Serde.deValue, readValue, hu,
                          validate_eq, hl, hv, hx, Buf.from_eq, Except.map]⟩
                · exact ⟨.seq [dq, ds, .unit], by
                    simp [Serde.deEntry, hdq, Serde.deSecond, hd, Serde.deThird, Serde.deValue, readValue, hu,
                      validate_eq, hl, Except.map]⟩
              · exact ⟨.seq [dq, ds, .unit], by
                  simp [Serde.deEntry, hdq, Serde.deSecond, hd, Serde.deThird, Serde.deValue, readValue, hu, Except.map]⟩

theorem readEntries_abstract (sc : DeScope E) : ∀ (k : Nat) (b : List UInt8),
    ∃ l, X.deEntries sc l = (readEntries X W sc k b).map (Option.map Prod.fst)
  | 0, b => ⟨[], rfl⟩
  | k + 1, b => by
    obtain ⟨d, hd⟩ := readEntry_abstract (X := X) (W := W) sc b
    unfold readEntries
    cases hr : readEntry X W sc b with
    | error e => exact ⟨[d], by simp [Serde.deEntries, hd, hr, Except.map]⟩
    | ok o =>
      cases o with
      | none => exact ⟨[d], by simp [Serde.deEntries, hd, hr, Except.map]⟩
      | some x =>
        obtain ⟨e, b'⟩ := x
        obtain ⟨l, hl⟩ := readEntries_abstract sc k b'
        refine ⟨d :: l, ?_⟩
        simp only [Serde.deEntries, hd, hr, Except.map, Option.map_some, Res.bind_ok, hl]
        cases hr' : readEntries X W sc k b' with
        | error e => simp
        | ok o => cases o <;> simp

/-- **C132** Loading bytes, whichever they are and wherever this happens, does what loading some data of the same format
does: all that was proved about loading arbitrary data holds for arbitrary bytes. -/
theorem C132_as_data (sc : DeScope E) (b : List UInt8) :
    ∃ d, X.deMap sc d = (readMap X W sc b).map (Option.map Prod.fst) := by
  unfold readMap
  cases hn : getNat 64 b with
  | none => exact ⟨.unit, by simp [Serde.deMap, deStruct, Except.map]⟩
  | some x =>
    obtain ⟨n, b'⟩ := x
    obtain ⟨l, hl⟩ := readEntries_abstract (X := X) (W := W) sc n b'
    exact ⟨serStruct X.fmt ["inner"] [.seq l], by simp [Serde.deMap, deStruct_serStruct, hl]⟩

theorem deEntry_error (sc : DeScope E) (d : Data) (e : Err) (h : X.deEntry sc d = .error e) : e = .panic := by
  have third : ∀ q s l, X.deThird q s l = .error e → e = .panic := by
    intro q s l h
    cases l with
    | nil => cases h
    | cons d l =>
      simp only [Serde.deThird, Serde.deValue] at h
      by_cases hu : X.supported s.vt = true
      · by_cases hl : Storable (E.layout s.ty)
        · simp only [hu, if_true, validate_eq, hl, Res.bind_ok, Buf.from_eq] at h
          cases hx : X.de s.ty d with
          | none => simp [hx] at h
          | some x =>
            simp only [hx, Res.bind_ok] at h
            split_ifs at h
        · simp only [hu, if_true, validate_eq, hl, if_false, Res.bind_error, Except.error.injEq] at h
          exact h.symm
      · simp only [if_neg hu, Res.bind_error, Except.error.injEq] at h
        exact h.symm
  have second : ∀ q l, X.deSecond sc q l = .error e → e = .panic := by
    intro q l h
    cases l with
    | nil => cases h
    | cons d l =>
      simp only [Serde.deSecond] at h
      cases hs : Serde.deStat sc d with
      | error e' =>
        simp only [hs, Res.bind_error, Except.error.injEq] at h
        subst h
        unfold Serde.deStat at hs
        split at hs
        · split at hs <;> cases hs
          rfl
        · cases hs
      | ok o =>
        cases o with
        | none => simp [hs] at h
        | some s => simp only [hs, Res.bind_ok] at h; exact third _ _ _ h
  unfold Serde.deEntry at h
  split at h
  · cases h
  · split at h
    · cases h
    · exact second _ _ h
  · cases h

theorem deMap_error (sc : DeScope E) (d : Data) (e : Err) (h : X.deMap sc d = .error e) : e = .panic := by
  have all : ∀ l, X.deEntries sc l = .error e → e = .panic := by
    intro l
    induction l with
    | nil => intro h; cases h
    | cons d l ih =>
      intro h
      simp only [Serde.deEntries] at h
      cases hd : X.deEntry sc d with
      | error e' =>
        simp only [hd, Res.bind_error, Except.error.injEq] at h
        exact h ▸ deEntry_error sc d e' hd
      | ok o =>
        cases o with
        | none => simp [hd] at h
        | some x =>
          simp only [hd, Res.bind_ok] at h
          cases hl : X.deEntries sc l with
          | error e' => simp only [hl, Res.bind_error, Except.error.injEq] at h; exact ih (by rw [hl, h])
          | ok o => simp [hl] at h
  unfold Serde.deMap at h
  split at h
  · exact all _ h
  · cases h

/-- **C132** Loading arbitrary bytes never reads a value as another type: at worst it panics. -/
theorem C132_no_ub (sc : DeScope E) (b : List UInt8) (e : Err) (h : readMap X W sc b = .error e) : e = .panic := by
  obtain ⟨d, hd⟩ := C132_as_data (X := X) (W := W) sc b
  rw [h] at hd
  exact deMap_error sc d e hd

/-- **C132** A map that was built by the crate's methods (see C13), whose stored values and qualifiers survive their own
impls and have the shapes given, and whose stats are registered under their names, survives being saved as bytes. -/
theorem C132_roundtrip [DecidableEq Q] [Ord Q] [Std.LawfulEqOrd Q] [Std.TransOrd Q] (A : Addr E) (hW : W.Lawful) (h : List (MapOp E Q)) (m : StatMap E Q)
    (hm : StatMap.run A h = .ok m) (reg : Registry E)
    (hq : ∀ e ∈ m, X.deQ (X.serQ e.qual) = some e.qual ∧ ∃ b, W.qual.put (X.serQ e.qual) = some b)
    (hv : ∀ e ∈ m, ∀ x : e.stat.Val, e.buf = .val e.stat.ty x →
      X.de e.stat.ty (X.ser e.stat.ty x) = some x ∧ ∃ b, (W.val e.stat.ty).put (X.ser e.stat.ty x) = some b)
    (hsup : ∀ e ∈ m, X.supported e.stat.vt = true)
    (hreg : ∀ e ∈ m, ∃ n, e.stat.name = .ok n ∧ reg n = some e.stat ∧ n.toByteArray.data.toList.length < 2 ^ 64)
    (hlen : m.length < 2 ^ 64) :
    ∃ b, writeMap X W m = .ok (some b) ∧ ∀ r, readMap X W (.registry reg) (b ++ r) = .ok (some (m, r)) := by
  obtain ⟨a, _, r⟩ := reachRep A hm
  exact C132_saved hW (fun e he => by
    obtain ⟨x, _, hx, hs⟩ := r.mem he
    obtain ⟨h1, h2⟩ := hv e he x hx
    exact ⟨⟨x, hx, hs, h1, h2⟩, hq e he, hsup e he, hreg e he⟩) hlen

/-- **C132** In a world where `register_stat` has returned for the types of all stored stats (see C66), among any other
registrations, a map that was saved as bytes, there or elsewhere, is loaded as it was. -/
theorem C132_world [DecidableEq Q] [Ord Q] [Std.LawfulEqOrd Q] [Std.TransOrd Q] {Ent G : Type} [DecidableEq Ent]
    (A : Addr E) (hW : W.Lawful) (h : List (MapOp E Q)) (m : StatMap E Q) (hm : StatMap.run A h = .ok m) (Ts : List E.S)
    (w w' : Resources E Q Ent G) (hw : w.registerStats A Ts = .ok w')
    (hreg : ∀ e ∈ m, e.stat.vt ∈ Ts ∧ Listed e.stat)
    (hname : ∀ e ∈ m, ∀ n, e.stat.name = .ok n → n.toByteArray.data.toList.length < 2 ^ 64)
    (hq : ∀ e ∈ m, X.deQ (X.serQ e.qual) = some e.qual ∧ ∃ b, W.qual.put (X.serQ e.qual) = some b)
    (hv : ∀ e ∈ m, ∀ x : e.stat.Val, e.buf = .val e.stat.ty x →
      X.de e.stat.ty (X.ser e.stat.ty x) = some x ∧ ∃ b, (W.val e.stat.ty).put (X.ser e.stat.ty x) = some b)
    (hsup : ∀ e ∈ m, X.supported e.stat.vt = true) (hne : m ≠ []) (hlen : m.length < 2 ^ 64) :
    ∃ b, writeMap X W m = .ok (some b) ∧ ∀ r, readMap X W w'.scope (b ++ r) = .ok (some (m, r)) := by
  obtain ⟨_, h2, h3⟩ := Resources.registerStats_spec A Ts w w' hw
  have hTs : Ts ≠ [] := by
    rintro rfl
    cases m with
    | nil => exact hne rfl
    | cons e _ => exact absurd (hreg e (by simp)).1 (by simp)
  obtain ⟨r, hr⟩ := Option.isSome_iff_exists.1 (h3 hTs)
  rw [hr] at h2
  simp only [Option.getD_some] at h2
  have : w'.scope = .registry (Deserializers.get r) := by simp [Resources.scope, hr]
  rw [this]
  refine C132_roundtrip A hW h m hm _ hq hv hsup (fun e he => ?_) hlen
  obtain ⟨hT, x, hx, hi, hf⟩ := hreg e he
  have hn : e.stat.name = .ok (E.statName x) := by simp [StatInst.name, hf]
  refine ⟨E.statName x, hn, ?_, hname e he _ hn⟩
  rw [h2 _ hT x hx, Env.asEntry, hi]

/-- **C132** Maps that were saved one after the other are loaded one after the other. -/
theorem C132_several (hW : W.Lawful) {reg : Registry E} : ∀ (ms : List (StatMap E Q)),
    (∀ m ∈ ms, m.length < 2 ^ 64 ∧ ∀ e ∈ m, Saves X W reg e) →
    ∃ bs, List.Forall₂ (fun m b => writeMap X W m = .ok (some b)) ms bs ∧
      ∀ r, ReadsAll (readMap X W (.registry reg)) (bs.flatten ++ r) ms r
  | [], _ => ⟨[], .nil, fun r => rfl⟩
  | m :: ms, h => by
    obtain ⟨b, h1, h2⟩ := C132_saved hW (h m (by simp)).2 (h m (by simp)).1
    obtain ⟨bs, h3, h4⟩ := C132_several hW ms (fun m' hm' => h m' (by simp [hm']))
    exact ⟨b :: bs, .cons h1 h3, fun r => ⟨bs.flatten ++ r, by
      rw [List.flatten_cons, List.append_assoc]; exact h2 _, h4 r⟩⟩

theorem readEntry_front (hW : W.Lawful) {sc : DeScope E} {b r : List UInt8} {e : Entry E Q (Buf E)}
    (h : readEntry X W sc b = .ok (some (e, r))) : ∃ u, 2 ≤ u.length ∧ b = u ++ r := by
  unfold readEntry at h
  cases hn : getNat 64 b with
  | none => simp [hn] at h
  | some x =>
    obtain ⟨n, b₁⟩ := x
    obtain ⟨u₁, hu₁, rfl⟩ := getNat_front hn
    simp only [hn] at h
    by_cases h0 : n = 0
    · simp [h0] at h
    rw [if_neg h0] at h
    cases hq : W.qual.get b₁ with
    | none => simp [hq] at h
    | some y =>
      obtain ⟨dq, b₂⟩ := y
      obtain ⟨u₂, rfl⟩ := hW.qual.front _ _ _ hq
      simp only [hq] at h
      cases hdq : X.deQ dq with
      | none => simp [hdq] at h
      | some q =>
        simp only [hdq, readSecond] at h
        by_cases h1 : n - 1 = 0
        · simp [h1] at h
        rw [if_neg h1] at h
        cases hs : Shape.str.get b₂ with
        | none => simp [hs] at h
        | some z =>
          obtain ⟨ds, b₃⟩ := z
          obtain ⟨s, u₃, rfl, _, hu₃, rfl, _⟩ := Shape.str_get hs
          simp only [hs] at h
          cases hd : Serde.deStat sc (.str s) with
          | error e => simp [hd] at h
          | ok o =>
            cases o with
            | none => simp [hd] at h
            | some st =>
              simp only [hd, Res.bind_ok, readThird] at h
              by_cases h2 : n - 1 - 1 = 0
              · simp [h2] at h
              rw [if_neg h2] at h
              simp only [readValue] at h
              by_cases hu : X.supported st.vt = true
              · by_cases hl : Storable (E.layout st.ty)
                · simp only [hu, if_true, validate_eq, hl, Res.bind_ok] at h
                  cases hv : (W.val st.ty).get b₃ with
                  | none => simp [hv] at h
                  | some y =>
                    obtain ⟨dv, r'⟩ := y
                    obtain ⟨u₄, rfl⟩ := (hW.val _).front _ _ _ hv
                    simp only [hv] at h
                    cases hx : X.de st.ty dv with
                    | none => simp [hx] at h
                    | some x =>
                      simp only [hx, Buf.from_eq, hl, if_true, Res.bind_ok, Option.map_some, Except.ok.injEq,
                        Option.some.injEq, Prod.mk.injEq] at h
                      refine ⟨u₁ ++ (u₂ ++ (u₃ ++ (s.toByteArray.data.toList ++ u₄))), ?_, by simp [h.2]⟩
                      have := List.length_pos_iff.2 hu₁
                      have := List.length_pos_iff.2 hu₃
                      simp only [List.length_append]
                      omega
                · simp [hu, validate_eq, hl] at h
              · simp [hu] at h

/-- **C132** What was loaded is bounded by what was read: each entry takes at least two bytes, whatever length the bytes
claim. -/
theorem C132_bounded (hW : W.Lawful) {sc : DeScope E} {b r : List UInt8} {m : StatMap E Q}
    (h : readMap X W sc b = .ok (some (m, r))) : ∃ u, 2 * m.length + 1 ≤ u.length ∧ b = u ++ r := by
  have all : ∀ (k : Nat) (b : List UInt8) (m : StatMap E Q), readEntries X W sc k b = .ok (some (m, r)) →
      m.length = k ∧ ∃ u, 2 * m.length ≤ u.length ∧ b = u ++ r := by
    intro k
    induction k with
    | zero =>
      intro b m h
      simp only [readEntries, Except.ok.injEq, Option.some.injEq, Prod.mk.injEq] at h
      rw [← h.1, ← h.2]
      exact ⟨rfl, [], by simp, rfl⟩
    | succ k ih =>
      intro b m h
      simp only [readEntries] at h
      cases he : readEntry X W sc b with
      | error e => simp [he] at h
      | ok o =>
        cases o with
        | none => simp [he] at h
        | some x =>
          obtain ⟨e, b'⟩ := x
          simp only [he, Res.bind_ok] at h
          cases hl : readEntries X W sc k b' with
          | error e => simp [hl] at h
          | ok o =>
            cases o with
            | none => simp [hl] at h
            | some y =>
              obtain ⟨l, r'⟩ := y
              simp only [hl, Res.bind_ok, Option.map_some, Except.ok.injEq, Option.some.injEq, Prod.mk.injEq] at h
              obtain ⟨rfl, rfl⟩ := h
              obtain ⟨h1, u, h2, rfl⟩ := ih b' l hl
              obtain ⟨u', h3, rfl⟩ := readEntry_front hW he
              exact ⟨by simp [h1], u' ++ u, by simp; omega, by simp⟩
  unfold readMap at h
  cases hn : getNat 64 b with
  | none => simp [hn] at h
  | some x =>
    obtain ⟨n, b₁⟩ := x
    simp only [hn] at h
    obtain ⟨_, u, h2, rfl⟩ := all n b₁ m h
    obtain ⟨u', h3, rfl⟩ := getNat_front hn
    have := List.length_pos_iff.2 h3
    exact ⟨u' ++ u, by simp; omega, by simp⟩

/-- **C132** Elements of an entry after the third are neither read nor reported: their bytes are taken for what follows
the entry.  (src/stat_map.rs:427-445 does not look at the end of the sequence; `postcard` does not, either.) -/
theorem C132_surplus (sc : DeScope E) {n : Nat} (h3 : 3 ≤ n) (hn : n < 2 ^ 64) (b : List UInt8) :
    readEntry X W sc (putNat 64 n ++ b) = readEntry X W sc (putNat 64 3 ++ b) := by
  simp only [readEntry, getNat_putNat (n := 64) (by decide) hn, getNat_putNat (n := 64) (x := 3) (by decide) (by decide)]
  rw [if_neg (by omega), if_neg (by decide)]
  cases W.qual.get b with
  | none => rfl
  | some x =>
    obtain ⟨d, b₂⟩ := x
    dsimp only
    cases X.deQ d with
    | none => rfl
    | some q =>
      simp only [readSecond]
      rw [if_neg (by omega), if_neg (by decide)]
      cases Shape.str.get b₂ with
      | none => rfl
      | some x =>
        obtain ⟨d, b₃⟩ := x
        dsimp only
        cases Serde.deStat sc d with
        | error e => rfl
        | ok o =>
          cases o with
          | none => rfl
          | some s =>
            simp only [Res.bind_ok, readThird]
            rw [if_neg (by omega), if_neg (by decide)]

/-- **C132** An entry that announces fewer than three elements is an error or a panic, never an entry. -/
theorem C132_short (sc : DeScope E) {n : Nat} (hn : n < 3) (b : List UInt8) (x) :
    readEntry X W sc (putNat 64 n ++ b) ≠ .ok (some x) := by
  simp only [readEntry, getNat_putNat (n := 64) (x := n) (by decide) (by omega)]
  split_ifs with h0
  · simp
  cases W.qual.get b with
  | none => simp
  | some x =>
    obtain ⟨d, b₂⟩ := x
    dsimp only
    cases X.deQ d with
    | none => simp
    | some q =>
      simp only [readSecond]
      split_ifs with h1
      · simp
      cases Shape.str.get b₂ with
      | none => simp
      | some x =>
        obtain ⟨d, b₃⟩ := x
        dsimp only
        cases Serde.deStat sc d with
        | error e => simp
        | ok o =>
          cases o with
          | none => simp
          | some s =>
            simp only [Res.bind_ok, readThird]
            rw [if_pos (by omega)]
            simp

/-- **C132** What was loaded can be saved and is loaded again, if impls accept what they write of values they produced,
and names are registered for stats of that name: also maps that no method of the crate can build (see C14). -/
theorem C132_resaved (hW : W.Lawful) {reg : Registry E}
    (hq : ∀ d q, X.deQ d = some q → X.deQ (X.serQ q) = some q ∧ ∃ b, W.qual.put (X.serQ q) = some b)
    (hv : ∀ u d x, X.de u d = some x → X.de u (X.ser u x) = some x ∧ ∃ b, (W.val u).put (X.ser u x) = some b)
    (hsup : ∀ s, X.supported s = true) (hst : ∀ u, Storable (E.layout u))
    (hreg : ∀ n s, reg n = some s → s.name = .ok n) {b r : List UInt8} {m : StatMap E Q}
    (h : readMap X W (.registry reg) b = .ok (some (m, r))) : ∃ b', writeMap X W m = .ok (some b') ∧
      ∀ r, readMap X W (.registry reg) (b' ++ r) = .ok (some (m, r)) := by
  obtain ⟨o, h1, h2⟩ := C132_accepted_iff (X := X) (W := W) reg hsup hst b
  rw [h, Except.ok.injEq] at h1
  obtain ⟨b₁, h3, h4⟩ := (h2 m r).1 h1.symm
  refine C132_saved hW ?_ (getNat_lt (by decide) h3)
  have all : ∀ (m : StatMap E Q) (b : List UInt8), BeginsWithAll X W reg b m r → ∀ e ∈ m, Saves X W reg e := by
    intro m
    induction m with
    | nil => simp
    | cons e m ih =>
      rintro b ⟨b', hb, hm⟩ e' he'
      rcases List.mem_cons.1 he' with rfl | he'
      · obtain ⟨n, b₁, dq, b₂, name, b₃, dv, x, g1, g2, g3, g4, g5, g6, g7, g8, g9⟩ := hb
        obtain ⟨k1, k2⟩ := hv _ _ _ g8
        obtain ⟨s, _, hs, hl, _⟩ := Shape.str_get g5
        cases hs
        exact ⟨⟨x, g9, hst _, k1, k2⟩, hq _ _ g4, hsup _, name, hreg _ _ g6, g6, hl⟩
      · exact ih b' hm e' he'
  exact all m b₁ h4

/-! ### concrete bytes -/

/-- the demonstration program in a positional format -/
def demoPostcard : Serde demo (BitVec 8) where
  serQ := (Codec.qualifier fmt (.bits 8)).ser
  deQ := (Codec.qualifier fmt (.bits 8)).de
  ser u := match u with
    | true => (Codec.statInt fmt .i32).ser
    | false => (Codec.statFlags fmt (.bits 8)).ser
  de u := match u with
    | true => (Codec.statInt fmt .i32).de
    | false => (Codec.statFlags fmt (.bits 8)).de
  supported _ := true
  fmt := fmt

def demoShapes : Shapes demo where
  qual := .two (.int ⟨8, false⟩)
  val u := match u with
    | true => .statInt .i32
    | false => .two (.int ⟨8, false⟩)

theorem demoShapes_lawful : demoShapes.Lawful where
  qual := (C132_qualifier (C132_bits (n := 8) (by simp [Width]))).1
  val u := match u with
    | true => (C132_statInt (t := .i32) (by simp [Width, IntTy.i32])).1
    | false => (C132_statFlags (C132_bits (n := 8) (by simp [Width]))).1

def demoNames : Registry demo := fun n =>
  if n = "flag1" then some (demoFlag 1) else if n = "int0" then some (demoInt 0) else none

/-- C132: names are registered for stats of that name -/
theorem demoNames_ok : ∀ n s, demoNames n = some s → s.name = .ok n := by
  intro n s h
  unfold demoNames at h
  split_ifs at h with h1 h2
  · cases h; subst h1; rfl
  · cases h; subst h2; rfl

/-- C132: the impls of the demonstration program accept what they write -/
theorem demoPostcard_qual (d : Data) (q : Qualifier (BitVec 8)) (_ : demoPostcard.deQ d = some q) :
    demoPostcard.deQ (demoPostcard.serQ q) = some q ∧ ∃ b, demoShapes.qual.put (demoPostcard.serQ q) = some b :=
  ⟨(Codec.C65_qualifier (f := fmt) (Codec.C65_bits 8)).roundtrip q ⟨trivial, trivial⟩,
    (C132_qualifier (C132_bits (n := 8) (by simp [Width]))).2 q ⟨trivial, trivial⟩⟩

theorem demoPostcard_val (u : Bool) (d : Data) (x : demoEl u) (h : demoPostcard.de u d = some x) :
    demoPostcard.de u (demoPostcard.ser u x) = some x ∧ ∃ b, (demoShapes.val u).put (demoPostcard.ser u x) = some b := by
  cases u with
  | true =>
    have hx := (Codec.C65_statInt (f := fmt) (t := .i32)).sound d x h
    exact ⟨(Codec.C65_statInt (f := fmt) (t := .i32)).roundtrip x hx,
      (C132_statInt (t := .i32) (by simp [Width, IntTy.i32])).2 x hx⟩
  | false =>
    exact ⟨(Codec.C65_statFlags (f := fmt) (Codec.C65_bits 8)).roundtrip x ⟨trivial, trivial⟩,
      (C132_statFlags (C132_bits (n := 8) (by simp [Width]))).2 x ⟨trivial, trivial⟩⟩

/-- C132: a map over two stat types -/
def demoMap : StatMap demo (BitVec 8) :=
  [⟨demoInt 0, ⟨1, 0⟩, .val true (⟨-6, -2147483648, 300, 1⟩ : StatInt)⟩,
   ⟨demoFlag 1, ⟨0, 200⟩, .val false (⟨3, 5⟩ : StatFlags (BitVec 8))⟩]

/-- C132: its bytes -/
def demoBytes : List UInt8 :=
  [2,
   3, 1, 0, 4, 105, 110, 116, 48, 11, 255, 255, 255, 255, 15, 216, 4, 2,
   3, 0, 200, 5, 102, 108, 97, 103, 49, 3, 5]

/-- **C132** The bytes of a map with a negative number, the least `i32`, one of two digits, and flags. -/
theorem C132_example : writeMap demoPostcard demoShapes demoMap = .ok (some demoBytes) := by decide +kernel

/-- C132: it meets the hypotheses -/
theorem demoMap_values : (∀ u, Storable (demo.layout u)) ∧ ∀ e ∈ demoMap, ∃ x, e.buf = .val e.stat.ty x := by
  refine ⟨fun u => by cases u <;> decide, ?_⟩
  intro e he
  simp only [demoMap, List.mem_cons, List.not_mem_nil, or_false] at he
  rcases he with rfl | rfl
  · exact ⟨_, rfl⟩
  · exact ⟨_, rfl⟩

theorem demoMap_saves : ∀ e ∈ demoMap, Saves demoPostcard demoShapes demoNames e := by
  intro e he
  simp only [demoMap, List.mem_cons, List.not_mem_nil, or_false] at he
  have hi : IntTy.i32.InRange (-6) ∧ IntTy.i32.InRange (-2147483648) ∧ IntTy.i32.InRange 300 ∧ IntTy.i32.InRange 1 := by
    decide
  rcases he with rfl | rfl
  · exact ⟨⟨_, rfl, by decide, (Codec.C65_statInt (f := fmt) (t := .i32)).roundtrip _ hi,
      (C132_statInt (t := .i32) (by simp [Width, IntTy.i32])).2 _ hi⟩,
      demoPostcard_qual (demoPostcard.serQ _) _ (Codec.C65_qualifier (f := fmt) (Codec.C65_bits 8) |>.roundtrip _ ⟨trivial, trivial⟩),
      rfl, "int0", rfl, rfl, by decide +kernel⟩
  · exact ⟨⟨_, rfl, by decide, (Codec.C65_statFlags (f := fmt) (Codec.C65_bits 8)).roundtrip _ ⟨trivial, trivial⟩,
      (C132_statFlags (C132_bits (n := 8) (by simp [Width]))).2 _ ⟨trivial, trivial⟩⟩,
      demoPostcard_qual (demoPostcard.serQ _) _ (Codec.C65_qualifier (f := fmt) (Codec.C65_bits 8) |>.roundtrip _ ⟨trivial, trivial⟩),
      rfl, "flag1", rfl, rfl, by decide +kernel⟩

/-- C132: so the map is read back from its bytes -/
example (r : List UInt8) :
    readMap demoPostcard demoShapes (.registry demoNames) (demoBytes ++ r) = .ok (some (demoMap, r)) := by
  obtain ⟨b, h1, h2⟩ := C132_saved demoShapes_lawful demoMap_saves (by decide)
  have h : writeMap demoPostcard demoShapes demoMap = .ok (some demoBytes) := by decide +kernel
  rw [h] at h1
  cases h1
  exact h2 r

/-- C132: the hypotheses of `C132_world` can be met -/
example : ∃ m w' b, StatMap.run demoAddr (Q := BitVec 8)
      [.insert ⟨0, 0⟩ (demoFlag 1) ⟨0, 5⟩, .insert ⟨1, 0⟩ (demoInt 0) ⟨6, 0, 9, 1⟩] = .ok m ∧ m.length = 2 ∧
    (⟨none, none, none, none⟩ : Resources demo (BitVec 8) Nat Unit).registerStats demoAddr [false, true] =
      .ok w' ∧ writeMap demoPostcard demoShapes m = .ok (some b) ∧
      ∀ r, readMap demoPostcard demoShapes w'.scope (b ++ r) = .ok (some (m, r)) := by
  have hi : IntTy.i32.InRange 6 ∧ IntTy.i32.InRange 0 ∧ IntTy.i32.InRange 9 ∧ IntTy.i32.InRange 1 := by decide
  obtain ⟨b, h1, h2⟩ := C132_world (X := demoPostcard) demoAddr demoShapes_lawful
    [.insert ⟨0, 0⟩ (demoFlag 1) ⟨0, 5⟩, .insert ⟨1, 0⟩ (demoInt 0) ⟨6, 0, 9, 1⟩] _ rfl [false, true]
    (⟨none, none, none, none⟩ : Resources demo (BitVec 8) Nat Unit) _ rfl
    (by
      rintro e (_ | ⟨_, _ | ⟨_, h⟩⟩)
      · exact ⟨by simp, (0 : Nat), by decide, rfl, rfl⟩
      · exact ⟨by simp, (1 : Nat), by decide, rfl, rfl⟩
      · cases h)
    (by
      rintro e (_ | ⟨_, _ | ⟨_, h⟩⟩) n hn
      · cases hn; decide +kernel
      · cases hn; decide +kernel
      · cases h)
    (fun e _ => demoPostcard_qual (demoPostcard.serQ e.qual) e.qual
      ((Codec.C65_qualifier fmt (Codec.C65_bits 8)).roundtrip _ ⟨trivial, trivial⟩))
    (by
      rintro e (_ | ⟨_, _ | ⟨_, h⟩⟩) x hx
      · cases hx
        exact ⟨(Codec.C65_statInt fmt .i32).roundtrip _ hi, (C132_statInt (t := .i32) (by simp [Width, IntTy.i32])).2 _ hi⟩
      · cases hx
        exact ⟨(Codec.C65_statFlags fmt (Codec.C65_bits 8)).roundtrip _ ⟨trivial, trivial⟩,
          (C132_statFlags (C132_bits (n := 8) (by simp [Width]))).2 _ ⟨trivial, trivial⟩⟩
      · cases h)
    (fun _ _ => rfl) (fun h => absurd (congrArg List.length h) (by decide)) (by decide)
  exact ⟨_, _, b, rfl, rfl, rfl, h1, h2⟩

/-- load and save again, with what is left -/
def demoAgain (b : List UInt8) : Res (Option (Option (List UInt8) × List UInt8)) := do
  let o ← readMap demoPostcard demoShapes (.registry demoNames) b
  match o with
  | none => .ok none
  | some (m, r) => do
    let c ← writeMap demoPostcard demoShapes m
    .ok (some (c, r))

/-- **C132** Bytes of a map are not unique: numbers may be written in more bytes than necessary, and entries may
announce elements that are not looked at. -/
theorem C132_not_unique :
    demoAgain [0x80, 0] = .ok (some (some [0], [])) ∧
    demoAgain [1, 9, 0, 200, 5, 102, 108, 97, 103, 49, 3, 5] =
      .ok (some (some [1, 3, 0, 200, 5, 102, 108, 97, 103, 49, 3, 5], [])) := by
  constructor <;> decide +kernel

/-- **C132** A fourth element of an entry is taken for the next entry: of two entries, the first of which has such an
element, the second is not loaded. -/
theorem C132_misread :
    let third : List UInt8 := [0, 200, 5, 102, 108, 97, 103, 49, 3, 5]
    let fourth : List UInt8 := [3, 0, 0, 5, 102, 108, 97, 103, 49, 7, 7]
    let next : List UInt8 := [3, 0, 0, 5, 102, 108, 97, 103, 49, 1, 1]
    demoAgain ([2, 4] ++ third ++ fourth ++ next) = .ok (some (some ([2, 3] ++ third ++ fourth), next)) := by
  decide +kernel

/-- C132: errors: no bytes, a number that does not fit, an unknown name, bytes that are no text -/
example : demoAgain [] = .ok none ∧
    demoAgain [255, 255, 255, 255, 255, 255, 255, 255, 255, 2] = .ok none ∧
    demoAgain [1, 3, 0, 200, 5, 102, 108, 97, 103, 50, 3, 5] = .ok none ∧
    demoAgain [1, 3, 0, 200, 1, 255, 3, 5] = .ok none := by
  refine ⟨?_, ?_, ?_, ?_⟩ <;> decide +kernel

end Postcard
end BSQ
