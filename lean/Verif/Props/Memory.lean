import Verif.Model.Memory
import Verif.Props.Layout
/-!
# C64: raw accesses are aligned and in bounds
-/
namespace BSQ
open Memory

/-- where the compiler may put an object: any address that is a multiple of its alignment -/
def Layout.MayBeAt (l : Layout) (addr : Nat) : Prop := l.align ∣ addr

theorem access_fits {l : Layout} {addr : Nat} (hl : Storable l) (h : buffer.MayBeAt addr) :
    access l addr buffer.size = .ok () := by
  obtain ⟨hs, ha⟩ := (C34_storable_iff_fits l).1 hl
  have h8 : 8 ∣ addr := h
  simp [access, ha addr h8, show buffer.size = 24 from rfl, hs]

/-- **C64** (the part that holds): every read, in-place change, move out and join of buffers, wherever they
lie and whatever the type, either panics in `validate` or is aligned and in bounds; so is a `cast` of a pair
whose value could be stored.  Missing: the write in `Buffer::from`, refuted below. -/
theorem C64_accesses_partial (l : Layout) (addr addr' : Nat) (h : buffer.MayBeAt addr)
    (h' : buffer.MayBeAt addr') :
    Memory.read l addr ≠ .error .ub ∧ Memory.join l addr addr' ≠ .error .ub ∧
    (Storable l → ∀ stat, Memory.cast stat l addr ≠ .error .ub) := by
  refine ⟨?_, ?_, fun hl stat => ?_⟩
  · by_cases hl : Storable l
    · simp [Memory.read, validate_eq, hl, access_fits hl h]
    · simp [Memory.read, validate_eq, hl]
  · by_cases hl : Storable l
    · simp [Memory.join, validate_eq, hl, access_fits hl h, access_fits hl h']
    · simp [Memory.join, validate_eq, hl]
  · by_cases hs : Storable stat
    · simp [Memory.cast, validate_eq, hs, access_fits hl h]
    · simp [Memory.cast, validate_eq, hs]

/-- C64: the accesses happen exactly when they should: a read, a change or a join goes through exactly for
storable types and panics for every other; a `cast` of a pair with a storable value goes through exactly when
the stat type, which is the one validated, is storable -/
theorem C64_accesses_iff (l : Layout) (addr addr' : Nat) (h : buffer.MayBeAt addr)
    (h' : buffer.MayBeAt addr') :
    (Memory.read l addr = .ok () ↔ Storable l) ∧ (Memory.read l addr = .error .panic ↔ ¬ Storable l) ∧
    (Memory.join l addr addr' = .ok () ↔ Storable l) ∧
    (Memory.join l addr addr' = .error .panic ↔ ¬ Storable l) ∧
    (Storable l → ∀ stat, (Memory.cast stat l addr = .ok () ↔ Storable stat) ∧
      (Memory.cast stat l addr = .error .panic ↔ ¬ Storable stat)) := by
  refine ⟨?_, ?_, ?_, ?_, fun hl stat => ?_⟩
  · by_cases hl : Storable l
    · simp [Memory.read, validate_eq, hl, access_fits hl h]
    · simp [Memory.read, validate_eq, hl]
  · by_cases hl : Storable l
    · simp [Memory.read, validate_eq, hl, access_fits hl h]
    · simp [Memory.read, validate_eq, hl]
  · by_cases hl : Storable l
    · simp [Memory.join, validate_eq, hl, access_fits hl h, access_fits hl h']
    · simp [Memory.join, validate_eq, hl]
  · by_cases hl : Storable l
    · simp [Memory.join, validate_eq, hl, access_fits hl h, access_fits hl h']
    · simp [Memory.join, validate_eq, hl]
  · by_cases hs : Storable stat
    · simp [Memory.cast, validate_eq, hs, access_fits hl h]
    · simp [Memory.cast, validate_eq, hs]

/-- C64: a type is always accessible through a buffer exactly when it is storable, so the check is neither
too lax nor too strict -/
theorem C64_storable_iff_accessible (l : Layout) :
    Storable l ↔ ∀ addr, buffer.MayBeAt addr → access l addr buffer.size = .ok () := by
  refine ⟨fun hl addr h => access_fits hl h, fun h => (C34_storable_iff_fits l).2 ⟨?_, fun addr ha => ?_⟩⟩
  · have := h 0 (Nat.dvd_zero _)
    unfold access at this
    split_ifs at this with hc
    exact hc.2
  · have := h addr ha
    unfold access at this
    split_ifs at this with hc
    exact hc.1

/-- **C64 is refuted for `Buffer::from`.**  It writes into a local byte array, which the compiler may place
at any address; for every storable type that needs alignment there is an address at which the write is
undefined behaviour. -/
theorem C64_refuted_from (l : Layout) (hl : Storable l) (ha : l.align ≠ 1) :
    ∃ addr, bytes24.MayBeAt addr ∧ Memory.from_ l addr = .error .ub := by
  refine ⟨1, Nat.dvd_refl 1, ?_⟩
  have : ¬ l.align ∣ 1 := by simpa [Nat.dvd_one] using ha
  simp [Memory.from_, validate_eq, hl, access, this]

/-- C64: in particular for every value type of the crate, all of which ask for alignment 8 -/
example : ∃ addr, bytes24.MayBeAt addr ∧ Memory.from_ (Layout.statInt 4) addr = .error .ub :=
  C64_refuted_from _ (by decide) (by decide)

/-- C64: the write is fine exactly for types that fit and an address aligned for them -/
theorem C64_from_ok_iff (l : Layout) (addr : Nat) :
    Memory.from_ l addr = .ok () ↔ Storable l ∧ l.align ∣ addr := by
  by_cases hl : Storable l
  · have : l.size ≤ bytes24.size := hl.2
    by_cases hd : l.align ∣ addr <;> simp [Memory.from_, validate_eq, hl, access, hd, this]
  · simp [Memory.from_, validate_eq, hl]

/-- C64: buffers exist at all their possible addresses, and a real value type is read there -/
example : buffer.MayBeAt 4096 ∧ Memory.read (Layout.statInt 4) 4096 = .ok () ∧
    Memory.join (Layout.statOnce ⟨16, 8⟩) 8 24 = .ok () ∧ buffer = ⟨24, 8⟩ :=
  ⟨⟨512, rfl⟩, rfl, rfl, rfl⟩

end BSQ
