import Verif.Model.Num
import Mathlib.Tactic.Ring
import Mathlib.Tactic.Linarith
import Mathlib.Algebra.Order.Group.Int
import Mathlib.Algebra.Order.Ring.Int
/-! Helper lemmas about machine integers. -/
namespace BSQ

theorem IntTy.two_pow_pos (n : Nat) : (0 : Int) < 2 ^ n := by positivity

theorem IntTy.lo_le_hi (t : IntTy) : t.lo ≤ t.hi := by
  have := IntTy.two_pow_pos (t.bits - 1)
  have := IntTy.two_pow_pos t.bits
  unfold IntTy.lo IntTy.hi; split <;> omega

theorem IntTy.lo_nonpos (t : IntTy) : t.lo ≤ 0 := by
  have := IntTy.two_pow_pos (t.bits - 1)
  unfold IntTy.lo; split <;> omega

theorem IntTy.lo_of_unsigned {t : IntTy} (h : t.signed = false) : t.lo = 0 := by simp [lo, h]

/-- the number of values of a type with at least one bit -/
theorem IntTy.hi_sub_lo {t : IntTy} (h : 0 < t.bits) : t.hi = t.lo + 2 ^ t.bits - 1 := by
  unfold IntTy.lo IntTy.hi
  obtain ⟨n, hn⟩ : ∃ n, t.bits = n + 1 := ⟨t.bits - 1, by omega⟩
  split
  · simp [hn, pow_succ]; ring
  · simp [hn, pow_succ]

theorem IntTy.wrap_emod (t : IntTy) (x : Int) : t.wrap x % (2 ^ t.bits : Int) = x % (2 ^ t.bits : Int) := by
  unfold IntTy.wrap; split
  · have := Int.bmod_emod (x := x) (m := 2 ^ t.bits)
    push_cast at this; exact this
  · simp

theorem IntTy.wrap_inRange {t : IntTy} (h : 0 < t.bits) (x : Int) : t.InRange (t.wrap x) := by
  obtain ⟨n, hn⟩ : ∃ n, t.bits = n + 1 := ⟨t.bits - 1, by omega⟩
  have hp := IntTy.two_pow_pos n
  unfold IntTy.InRange IntTy.wrap IntTy.lo IntTy.hi
  split
  · have h1 := Int.le_bmod (x := x) (m := 2 ^ t.bits) (by positivity)
    have h2 := Int.bmod_lt (x := x) (m := 2 ^ t.bits) (by positivity)
    simp only [hn, pow_succ, Nat.add_sub_cancel] at *
    push_cast at *
    omega
  · have h1 := Int.emod_nonneg x (b := 2 ^ t.bits) (by positivity)
    have h2 := Int.emod_lt_of_pos x (b := 2 ^ t.bits) (by positivity)
    omega

/-- two in-range values congruent modulo the width are equal -/
theorem IntTy.eq_of_emod {t : IntTy} (h : 0 < t.bits) {x y : Int} (hx : t.InRange x) (hy : t.InRange y)
    (e : x % (2 ^ t.bits : Int) = y % (2 ^ t.bits : Int)) : x = y := by
  have hs := IntTy.hi_sub_lo h
  obtain ⟨hx1, hx2⟩ := hx; obtain ⟨hy1, hy2⟩ := hy
  have hd : (2 ^ t.bits : Int) ∣ x - y :=
    Int.dvd_of_emod_eq_zero (Int.emod_eq_emod_iff_emod_sub_eq_zero.1 e)
  have h0 := Int.eq_zero_of_abs_lt_dvd hd (by rw [abs_lt]; omega)
  omega

theorem IntTy.wrap_of_inRange {t : IntTy} (h : 0 < t.bits) {x : Int} (hx : t.InRange x) :
    t.wrap x = x :=
  IntTy.eq_of_emod h (IntTy.wrap_inRange h x) hx (t.wrap_emod x)

theorem IntTy.wrap_eq_of_emod {t : IntTy} {x y : Int}
    (e : x % (2 ^ t.bits : Int) = y % (2 ^ t.bits : Int)) : t.wrap x = t.wrap y := by
  unfold IntTy.wrap; split
  · have hx := Int.emod_bmod (x := x) (n := 2 ^ t.bits)
    have hy := Int.emod_bmod (x := y) (n := 2 ^ t.bits)
    push_cast at hx hy
    rw [← hx, e, hy]
  · exact e

@[simp] theorem IntTy.wrap_wrap_add (t : IntTy) (x y : Int) : t.wrap (t.wrap x + y) = t.wrap (x + y) :=
  IntTy.wrap_eq_of_emod (by rw [Int.add_emod, IntTy.wrap_emod, ← Int.add_emod])

@[simp] theorem IntTy.wrap_add_wrap (t : IntTy) (x y : Int) : t.wrap (x + t.wrap y) = t.wrap (x + y) :=
  IntTy.wrap_eq_of_emod (by rw [Int.add_emod, IntTy.wrap_emod, ← Int.add_emod])

@[simp] theorem IntTy.wrap_wrap_mul (t : IntTy) (x y : Int) : t.wrap (t.wrap x * y) = t.wrap (x * y) :=
  IntTy.wrap_eq_of_emod (by rw [Int.mul_emod, IntTy.wrap_emod, ← Int.mul_emod])

@[simp] theorem IntTy.wrap_mul_wrap (t : IntTy) (x y : Int) : t.wrap (x * t.wrap y) = t.wrap (x * y) :=
  IntTy.wrap_eq_of_emod (by rw [Int.mul_emod, IntTy.wrap_emod, ← Int.mul_emod])

namespace NumTy

theorem fit_inRange {t : NumTy} {x : Int} (h : t.prim.InRange x) : t.fit x = .ok x := by
  simp [fit, h]

/-- with overflow checks a successful result is exact and in range -/
theorem fit_panic {t : NumTy} (h : t.ovf = .panic) {x y : Int} :
    t.fit x = .ok y ↔ y = x ∧ t.prim.InRange x := by
  unfold fit; split
  · rename_i hx; simp [hx, eq_comm]
  · rename_i hx; simp [h, hx]

theorem fit_wrap {t : NumTy} (h : t.ovf = .wrap) (hb : 0 < t.prim.bits) (x : Int) :
    t.fit x = .ok (t.prim.wrap x) := by
  unfold fit; split
  · rename_i hx; rw [IntTy.wrap_of_inRange hb hx]
  · simp [h]

/-- saturation is clamping -/
theorem fit_sat {t : NumTy} (h : t.ovf = .sat) (x : Int) :
    t.fit x = .ok (Max.max t.prim.lo (Min.min x t.prim.hi)) := by
  have hl := t.prim.lo_le_hi
  unfold fit; split
  · rename_i hx; simp only [IntTy.InRange] at hx; simp only [Except.ok.injEq]; omega
  · rename_i hx
    simp only [IntTy.InRange] at hx
    simp only [h, Except.ok.injEq]
    split <;> omega

theorem fit_ne_panic {t : NumTy} (h : t.ovf ≠ .panic) (x : Int) : ∃ y, t.fit x = .ok y := by
  unfold fit; split
  · exact ⟨_, rfl⟩
  · cases ho : t.ovf with
    | panic => exact absurd ho h
    | wrap => exact ⟨_, rfl⟩
    | sat => exact ⟨_, rfl⟩

theorem ovf_of_prim_debug {t : NumTy} (hk : t.kind = .prim) (hb : t.build = .debug) :
    t.ovf = .panic := by simp [ovf, hk, hb]

theorem min_eq (t : NumTy) (a b : Int) : t.min a b = Min.min a b := by
  unfold NumTy.min; split <;> omega

theorem max_eq (t : NumTy) (a b : Int) : t.max a b = Max.max a b := by
  unfold NumTy.max; split <;> omega

end NumTy
end BSQ
