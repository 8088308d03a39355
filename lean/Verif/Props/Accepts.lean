import Verif.Spec.Accepts
import Verif.Props.SerdeTypes
/-!
# C143: what is accepted as a saved value

For every type, which data are read as which value.
-/
namespace BSQ
set_option linter.unusedSimpArgs false
namespace Codec

theorem deField_iff (fs : List (String × Data)) (n : String) (d : Data) :
    deField fs n = some d ↔ ∃ l r, fs = l ++ (n, d) :: r ∧ ∀ x ∈ l ++ r, x.1 ≠ n := by
  have h : deField fs n = some d ↔ fs.filter (fun f => f.1 == n) = [(n, d)] := by
    unfold deField
    constructor
    · intro h
      split at h
      · rename_i f hf
        have hm : f ∈ fs.filter (fun f => f.1 == n) := by rw [hf]; simp
        have h2 : f.1 = n := by simpa using (List.mem_filter.1 hm).2
        cases h
        rw [hf, ← h2]
      · cases h
    · intro h; rw [h]
  rw [h, List.filter_eq_cons_iff]
  constructor
  · rintro ⟨l, r, h1, h2, -, h3⟩
    rw [List.filter_eq_nil_iff] at h3
    refine ⟨l, r, h1, fun x hx => ?_⟩
    rcases List.mem_append.1 hx with hx | hx
    · simpa using h2 x hx
    · simpa using h3 x hx
  · rintro ⟨l, r, h1, h2⟩
    exact ⟨l, r, h1, fun x hx => by simpa using h2 x (by simp [hx]), by simp,
      List.filter_eq_nil_iff.2 fun x hx => by simpa using h2 x (by simp [hx])⟩

theorem deTuple_iff (f : Format) (n : Nat) (l ds : List Data) :
    deTuple f n l = some ds ↔ ds.length = n ∧ ∃ more, l = ds ++ more ∧ (f.strictEnd = true → more = []) := by
  unfold deTuple
  constructor
  · intro h
    split at h
    · cases h
    · split at h
      · cases h
      · rename_i h1 h2
        cases h
        refine ⟨by simp; omega, l.drop n, (List.take_append_drop n l).symm, fun hs => ?_⟩
        simp [hs] at h2
        exact List.drop_eq_nil_of_le h2
  · rintro ⟨rfl, more, rfl, h⟩
    rw [if_neg (by simp), if_neg]
    · simp
    · simp only [Bool.and_eq_true, decide_eq_true_eq, not_and]
      intro hs
      simp [h hs]

/-- C143: what fields a struct is given by a datum -/
theorem C143_struct (f : Format) (names : List String) (d : Data) (ds : List Data) :
    deStruct f names d = some ds ↔ ds.length = names.length ∧ GivesFields f (names.zip ds) d := by
  cases d with
  | fields fs =>
    have h : deStruct f names (.fields fs) = some ds ↔ ds.length = names.length ∧
        ∀ p ∈ names.zip ds, deField fs p.1 = some p.2 := by
      change names.mapM (deField fs) = some ds ↔ _
      induction names generalizing ds with
      | nil => simp [eq_comm]
      | cons n ns ih =>
        rw [List.mapM_cons]
        cases ds with
        | nil =>
          refine ⟨fun h => ?_, fun h => by cases h.1⟩
          simp only [Option.pure_def, Option.bind_eq_bind, Option.bind_eq_some_iff, Option.some.injEq, reduceCtorEq,
            and_false, exists_false] at h
        | cons d ds =>
          simp only [Option.pure_def, Option.bind_eq_bind, Option.bind_eq_some_iff, Option.some.injEq, List.cons.injEq,
            List.length_cons, Nat.add_right_cancel_iff, List.zip_cons_cons, List.forall_mem_cons]
          constructor
          · rintro ⟨_, h1, _, h2, rfl, rfl⟩
            exact ⟨((ih _).1 h2).1, h1, ((ih _).1 h2).2⟩
          · rintro ⟨h1, h2, h3⟩
            exact ⟨_, h2, _, (ih _).2 ⟨h1, h3⟩, rfl, rfl⟩
    rw [h]
    refine and_congr_right fun _ => ⟨fun h => .named fs fun p hp => (deField_iff _ _ _).1 (h p hp), ?_⟩
    rintro (⟨_, h⟩)
    exact fun p hp => (deField_iff _ _ _).2 (h p hp)
  | seq l =>
    change deTuple f names.length l = some ds ↔ _
    rw [deTuple_iff]
    refine and_congr_right fun hl => ?_
    have hz : (names.zip ds).map (·.2) = ds := List.map_snd_zip hl.le
    constructor
    · rintro ⟨more, rfl, h⟩
      have := GivesFields.positional (f := f) (parts := names.zip ds) more h
      rwa [hz] at this
    · rintro (_ | ⟨more, h⟩)
      exact ⟨more, by rw [hz], h⟩
  | _ => exact ⟨(by rintro ⟨⟩), (by rintro ⟨_, ⟨⟩⟩)⟩

/-! ### primitives -/

/-- C143: integers in range -/
theorem C143_int (t : IntTy) (d : Data) (x : Int) : (int t).de d = some x ↔ d = .int x ∧ t.InRange x := by
  unfold int
  cases d <;> simp
  constructor
  · rintro ⟨h, rfl⟩; exact ⟨rfl, h⟩
  · rintro ⟨rfl, h⟩; exact ⟨h, rfl⟩

theorem C143_bool (d : Data) (x : Bool) : bool.de d = some x ↔ d = .bool x := by
  unfold bool
  cases d <;> simp

/-- C143: floats, rounded to the type, and integers -/
theorem C143_float (g : Fmt) (d : Data) (x : Fl) : (float g).de d = some x ↔
    (∃ q, d = .float (.fin q) ∧ x = g.rnd q) ∨ (d = .float x ∧ ∀ q, x ≠ .fin q) ∨ ∃ i : Int, d = .int i ∧ x = g.rnd i := by
  unfold float
  cases d with
  | float y =>
    cases y with
    | fin q =>
      simp only [Option.some.injEq, Data.float.injEq, Fl.fin.injEq, reduceCtorEq, false_and, exists_false, or_false]
      constructor
      · rintro rfl; exact .inl ⟨q, rfl, rfl⟩
      · rintro (⟨_, rfl, rfl⟩ | ⟨rfl, h⟩)
        · rfl
        · exact absurd rfl (h q)
    | _ =>
      simp only [Option.some.injEq, Data.float.injEq, reduceCtorEq, false_and, exists_false, or_false, false_or]
      constructor
      · rintro rfl; exact ⟨rfl, fun q h => by cases h⟩
      · exact fun h => h.1
  | int i => simp [eq_comm]
  | _ => simp

/-- C143: flag sets, as the number of their bits -/
theorem C143_bits (n : Nat) (d : Data) (x : BitVec n) : (bits n).de d = some x ↔ d = .int x.toNat := by
  unfold bits
  cases d with
  | int i =>
    simp only [Option.ite_none_right_eq_some, Option.some.injEq, Data.int.injEq]
    constructor
    · rintro ⟨⟨h1, h2⟩, rfl⟩
      rw [BitVec.toNat_ofInt]
      have : i % ((2 ^ n : Nat) : Int) = i := Int.emod_eq_of_lt h1 (by exact_mod_cast h2)
      rw [this]
      exact (Int.toNat_of_nonneg h1).symm
    · rintro rfl
      refine ⟨⟨by positivity, by exact_mod_cast x.isLt⟩, ?_⟩
      simp
  | _ => simp

theorem C143_string (d : Data) (x : String) : string.de d = some x ↔ d = .str x := by
  unfold string
  cases d <;> simp

/-- C143: `Unsupported` is never read -/
theorem C143_unsupported (d : Data) : unsupported.de d = none := rfl

theorem phantom_iff (d : Data) (x : Unit) : phantom.de d = some x ↔ d = .unit := by
  unfold phantom
  cases d <;> simp

/-- C143: fractions -/
theorem C143_frac (f : Format) (t : IntTy) (d : Data) (x : Frac) : (frac f t).de d = some x ↔ GivesFrac f t x d := by
  unfold frac GivesFrac
  cases d with
  | seq l =>
    simp only
    constructor
    · intro h
      split at h
      · rename_i a b hab
        obtain ⟨-, more, rfl, hm⟩ := (deTuple_iff _ _ _ _).1 hab
        simp only [Option.bind_eq_bind, Option.bind_eq_some_iff, C143_int, Option.ite_none_left_eq_some,
          Option.some.injEq] at h
        obtain ⟨n, ⟨rfl, hn⟩, m, ⟨rfl, hm'⟩, h0, rfl⟩ := h
        exact ⟨⟨more, rfl, hm⟩, hn, hm', h0⟩
      · cases h
    · rintro ⟨⟨more, h, hm⟩, hn, hd, h0⟩
      cases h
      rw [(deTuple_iff f 2 (.int x.num :: .int x.den :: more) [.int x.num, .int x.den]).2 ⟨rfl, more, rfl, hm⟩]
      simp only [Option.bind_eq_bind, Option.bind_eq_some_iff, C143_int, Option.ite_none_left_eq_some]
      exact ⟨_, ⟨rfl, hn⟩, _, ⟨rfl, hd⟩, h0, rfl⟩
  | _ => simp

/-! ### structs -/

section structs
variable (f : Format) (t : IntTy) (d : Data) {F : Type} (k : Codec F)

/-- C143: `StatInt` -/
theorem C143_statInt (x : StatInt) : (statInt f t).de d = some x ↔
    GivesFields f [("addend", .int x.addend), ("min", .int x.min), ("max", .int x.max), ("mult", .int x.mult)] d ∧
      t.InRange x.addend ∧ t.InRange x.min ∧ t.InRange x.max ∧ t.InRange x.mult := by
  simp only [statInt]
  constructor
  · intro h
    split at h
    · rename_i hs
      simp only [Option.bind_eq_bind, Option.bind_eq_some_iff, Option.some.injEq, C143_int, C143_frac, phantom_iff] at h
      obtain ⟨_, ⟨rfl, h0⟩, _, ⟨rfl, h1⟩, _, ⟨rfl, h2⟩, _, ⟨rfl, h3⟩, rfl⟩ := h
      exact ⟨((C143_struct _ _ _ _).1 hs).2, h0, h1, h2, h3⟩
    · cases h
  · rintro ⟨hg, h0, h1, h2, h3⟩
    rw [(C143_struct f ["addend", "min", "max", "mult"] d [_, _, _, _]).2 ⟨rfl, hg⟩]
    simp only [Option.bind_eq_bind, Option.bind_eq_some_iff, Option.some.injEq, C143_int, C143_frac, phantom_iff]
    exact ⟨_, ⟨rfl, h0⟩, _, ⟨rfl, h1⟩, _, ⟨rfl, h2⟩, _, ⟨rfl, h3⟩, rfl⟩

/-- C143: `StatIntFraction` -/
theorem C143_statIntFraction (x : StatIntFraction) : (statIntFraction f t).de d = some x ↔
    ∃ d_mult, GivesFields f [("addend", .int x.addend), ("min", .int x.min), ("max", .int x.max), ("mult", d_mult),
        ("rounding", .unit)] d ∧
      t.InRange x.addend ∧ t.InRange x.min ∧ t.InRange x.max ∧ GivesFrac f t x.mult d_mult := by
  simp only [statIntFraction]
  constructor
  · intro h
    split at h
    · rename_i hs
      simp only [Option.bind_eq_bind, Option.bind_eq_some_iff, Option.some.injEq, C143_int, C143_frac, phantom_iff] at h
      obtain ⟨_, ⟨rfl, h0⟩, _, ⟨rfl, h1⟩, _, ⟨rfl, h2⟩, _, h3, _, rfl, rfl⟩ := h
      exact ⟨_, ((C143_struct _ _ _ _).1 hs).2, h0, h1, h2, h3⟩
    · cases h
  · rintro ⟨_, hg, h0, h1, h2, h3⟩
    rw [(C143_struct f ["addend", "min", "max", "mult", "rounding"] d [_, _, _, _, _]).2 ⟨rfl, hg⟩]
    simp only [Option.bind_eq_bind, Option.bind_eq_some_iff, Option.some.injEq, C143_int, C143_frac, phantom_iff]
    exact ⟨_, ⟨rfl, h0⟩, _, ⟨rfl, h1⟩, _, ⟨rfl, h2⟩, _, h3, (), trivial, rfl⟩

/-- C143: `StatIntFloatMul` -/
theorem C143_statIntFloatMul (x : StatIntFloatMul F) : (statIntFloatMul f t k).de d = some x ↔
    ∃ d_mult, GivesFields f [("addend", .int x.addend), ("min", .int x.min), ("max", .int x.max), ("mult", d_mult),
        ("rounding", .unit)] d ∧
      t.InRange x.addend ∧ t.InRange x.min ∧ t.InRange x.max ∧ k.de d_mult = some x.mult := by
  simp only [statIntFloatMul]
  constructor
  · intro h
    split at h
    · rename_i hs
      simp only [Option.bind_eq_bind, Option.bind_eq_some_iff, Option.some.injEq, C143_int, C143_frac, phantom_iff] at h
      obtain ⟨_, ⟨rfl, h0⟩, _, ⟨rfl, h1⟩, _, ⟨rfl, h2⟩, _, h3, _, rfl, rfl⟩ := h
      exact ⟨_, ((C143_struct _ _ _ _).1 hs).2, h0, h1, h2, h3⟩
    · cases h
  · rintro ⟨_, hg, h0, h1, h2, h3⟩
    rw [(C143_struct f ["addend", "min", "max", "mult", "rounding"] d [_, _, _, _, _]).2 ⟨rfl, hg⟩]
    simp only [Option.bind_eq_bind, Option.bind_eq_some_iff, Option.some.injEq, C143_int, C143_frac, phantom_iff]
    exact ⟨_, ⟨rfl, h0⟩, _, ⟨rfl, h1⟩, _, ⟨rfl, h2⟩, _, h3, (), trivial, rfl⟩

/-- C143: `StatIntPercentAdditive` -/
theorem C143_statIntPercentAdditive (x : StatIntPercentAdditive) : (statIntPercentAdditive f t).de d = some x ↔
    GivesFields f [("addend", .int x.addend), ("mult", .int x.mult), ("min", .int x.min), ("max", .int x.max),
        ("rounding", .unit)] d ∧
      t.InRange x.addend ∧ t.InRange x.mult ∧ t.InRange x.min ∧ t.InRange x.max := by
  simp only [statIntPercentAdditive]
  constructor
  · intro h
    split at h
    · rename_i hs
      simp only [Option.bind_eq_bind, Option.bind_eq_some_iff, Option.some.injEq, C143_int, C143_frac, phantom_iff] at h
      obtain ⟨_, ⟨rfl, h0⟩, _, ⟨rfl, h1⟩, _, ⟨rfl, h2⟩, _, ⟨rfl, h3⟩, _, rfl, rfl⟩ := h
      exact ⟨((C143_struct _ _ _ _).1 hs).2, h0, h1, h2, h3⟩
    · cases h
  · rintro ⟨hg, h0, h1, h2, h3⟩
    rw [(C143_struct f ["addend", "mult", "min", "max", "rounding"] d [_, _, _, _, _]).2 ⟨rfl, hg⟩]
    simp only [Option.bind_eq_bind, Option.bind_eq_some_iff, Option.some.injEq, C143_int, C143_frac, phantom_iff]
    exact ⟨_, ⟨rfl, h0⟩, _, ⟨rfl, h1⟩, _, ⟨rfl, h2⟩, _, ⟨rfl, h3⟩, (), trivial, rfl⟩

/-- C143: `StatIntPercent` -/
theorem C143_statIntPercent (x : StatIntPercent) : (statIntPercent f t).de d = some x ↔
    ∃ d_mult, GivesFields f [("addend", .int x.addend), ("mult", d_mult), ("min", .int x.min), ("max", .int x.max),
        ("rounding", .unit)] d ∧
      t.InRange x.addend ∧ GivesFrac f t x.mult d_mult ∧ t.InRange x.min ∧ t.InRange x.max := by
  simp only [statIntPercent]
  constructor
  · intro h
    split at h
    · rename_i hs
      simp only [Option.bind_eq_bind, Option.bind_eq_some_iff, Option.some.injEq, C143_int, C143_frac, phantom_iff] at h
      obtain ⟨_, ⟨rfl, h0⟩, _, h1, _, ⟨rfl, h2⟩, _, ⟨rfl, h3⟩, _, rfl, rfl⟩ := h
      exact ⟨_, ((C143_struct _ _ _ _).1 hs).2, h0, h1, h2, h3⟩
    · cases h
  · rintro ⟨_, hg, h0, h1, h2, h3⟩
    rw [(C143_struct f ["addend", "mult", "min", "max", "rounding"] d [_, _, _, _, _]).2 ⟨rfl, hg⟩]
    simp only [Option.bind_eq_bind, Option.bind_eq_some_iff, Option.some.injEq, C143_int, C143_frac, phantom_iff]
    exact ⟨_, ⟨rfl, h0⟩, _, h1, _, ⟨rfl, h2⟩, _, ⟨rfl, h3⟩, (), trivial, rfl⟩

/-- C143: `StatFloat` -/
theorem C143_statFloat (x : StatFloat F) : (statFloat f k).de d = some x ↔
    ∃ d_addend d_min d_max d_mult, GivesFields f [("addend", d_addend), ("min", d_min), ("max", d_max), ("mult", d_mult)] d ∧
      k.de d_addend = some x.addend ∧ k.de d_min = some x.min ∧ k.de d_max = some x.max ∧ k.de d_mult = some x.mult := by
  simp only [statFloat]
  constructor
  · intro h
    split at h
    · rename_i hs
      simp only [Option.bind_eq_bind, Option.bind_eq_some_iff, Option.some.injEq, C143_int, C143_frac, phantom_iff] at h
      obtain ⟨_, h0, _, h1, _, h2, _, h3, rfl⟩ := h
      exact ⟨_, _, _, _, ((C143_struct _ _ _ _).1 hs).2, h0, h1, h2, h3⟩
    · cases h
  · rintro ⟨_, _, _, _, hg, h0, h1, h2, h3⟩
    rw [(C143_struct f ["addend", "min", "max", "mult"] d [_, _, _, _]).2 ⟨rfl, hg⟩]
    simp only [Option.bind_eq_bind, Option.bind_eq_some_iff, Option.some.injEq, C143_int, C143_frac, phantom_iff]
    exact ⟨_, h0, _, h1, _, h2, _, h3, rfl⟩

/-- C143: `StatFloatAdditive` -/
theorem C143_statFloatAdditive (x : StatFloatAdditive F) : (statFloatAdditive f k).de d = some x ↔
    ∃ d_addend d_min d_max d_mult, GivesFields f [("addend", d_addend), ("min", d_min), ("max", d_max), ("mult", d_mult)] d ∧
      k.de d_addend = some x.addend ∧ k.de d_min = some x.min ∧ k.de d_max = some x.max ∧ k.de d_mult = some x.mult := by
  simp only [statFloatAdditive]
  constructor
  · intro h
    split at h
    · rename_i hs
      simp only [Option.bind_eq_bind, Option.bind_eq_some_iff, Option.some.injEq, C143_int, C143_frac, phantom_iff] at h
      obtain ⟨_, h0, _, h1, _, h2, _, h3, rfl⟩ := h
      exact ⟨_, _, _, _, ((C143_struct _ _ _ _).1 hs).2, h0, h1, h2, h3⟩
    · cases h
  · rintro ⟨_, _, _, _, hg, h0, h1, h2, h3⟩
    rw [(C143_struct f ["addend", "min", "max", "mult"] d [_, _, _, _]).2 ⟨rfl, hg⟩]
    simp only [Option.bind_eq_bind, Option.bind_eq_some_iff, Option.some.injEq, C143_int, C143_frac, phantom_iff]
    exact ⟨_, h0, _, h1, _, h2, _, h3, rfl⟩

/-- C143: `StatMult` -/
theorem C143_statMult (x : StatMult F) : (statMult f k).de d = some x ↔
    ∃ d_min d_max d_mult, GivesFields f [("min", d_min), ("max", d_max), ("mult", d_mult)] d ∧
      k.de d_min = some x.min ∧ k.de d_max = some x.max ∧ k.de d_mult = some x.mult := by
  simp only [statMult]
  constructor
  · intro h
    split at h
    · rename_i hs
      simp only [Option.bind_eq_bind, Option.bind_eq_some_iff, Option.some.injEq, C143_int, C143_frac, phantom_iff] at h
      obtain ⟨_, h0, _, h1, _, h2, rfl⟩ := h
      exact ⟨_, _, _, ((C143_struct _ _ _ _).1 hs).2, h0, h1, h2⟩
    · cases h
  · rintro ⟨_, _, _, hg, h0, h1, h2⟩
    rw [(C143_struct f ["min", "max", "mult"] d [_, _, _]).2 ⟨rfl, hg⟩]
    simp only [Option.bind_eq_bind, Option.bind_eq_some_iff, Option.some.injEq, C143_int, C143_frac, phantom_iff]
    exact ⟨_, h0, _, h1, _, h2, rfl⟩

/-- C143: `StatFlags` -/
theorem C143_statFlags (x : StatFlags F) : (statFlags f k).de d = some x ↔
    ∃ d_not d_or, GivesFields f [("not", d_not), ("or", d_or)] d ∧
      k.de d_not = some x.not ∧ k.de d_or = some x.or := by
  simp only [statFlags]
  constructor
  · intro h
    split at h
    · rename_i hs
      simp only [Option.bind_eq_bind, Option.bind_eq_some_iff, Option.some.injEq, C143_int, C143_frac, phantom_iff] at h
      obtain ⟨_, h0, _, h1, rfl⟩ := h
      exact ⟨_, _, ((C143_struct _ _ _ _).1 hs).2, h0, h1⟩
    · cases h
  · rintro ⟨_, _, hg, h0, h1⟩
    rw [(C143_struct f ["not", "or"] d [_, _]).2 ⟨rfl, hg⟩]
    simp only [Option.bind_eq_bind, Option.bind_eq_some_iff, Option.some.injEq, C143_int, C143_frac, phantom_iff]
    exact ⟨_, h0, _, h1, rfl⟩

/-- C143: `Prioritized` -/
theorem C143_prioritized (x : Prioritized F) : (prioritized f k).de d = some x ↔
    ∃ d_value, GivesFields f [("value", d_value), ("priority", .int x.priority)] d ∧
      k.de d_value = some x.value ∧ IntTy.i32.InRange x.priority := by
  simp only [prioritized]
  constructor
  · intro h
    split at h
    · rename_i hs
      simp only [Option.bind_eq_bind, Option.bind_eq_some_iff, Option.some.injEq, C143_int, C143_frac, phantom_iff] at h
      obtain ⟨_, h0, _, ⟨rfl, h1⟩, rfl⟩ := h
      exact ⟨_, ((C143_struct _ _ _ _).1 hs).2, h0, h1⟩
    · cases h
  · rintro ⟨_, hg, h0, h1⟩
    rw [(C143_struct f ["value", "priority"] d [_, _]).2 ⟨rfl, hg⟩]
    simp only [Option.bind_eq_bind, Option.bind_eq_some_iff, Option.some.injEq, C143_int, C143_frac, phantom_iff]
    exact ⟨_, h0, _, ⟨rfl, h1⟩, rfl⟩

/-- C143: `Qualifier` -/
theorem C143_qualifier (x : Qualifier F) : (qualifier f k).de d = some x ↔
    ∃ d_any_of d_all_of, GivesFields f [("any_of", d_any_of), ("all_of", d_all_of)] d ∧
      k.de d_any_of = some x.anyOf ∧ k.de d_all_of = some x.allOf := by
  simp only [qualifier]
  constructor
  · intro h
    split at h
    · rename_i hs
      simp only [Option.bind_eq_bind, Option.bind_eq_some_iff, Option.some.injEq, C143_int, C143_frac, phantom_iff] at h
      obtain ⟨_, h0, _, h1, rfl⟩ := h
      exact ⟨_, _, ((C143_struct _ _ _ _).1 hs).2, h0, h1⟩
    · cases h
  · rintro ⟨_, _, hg, h0, h1⟩
    rw [(C143_struct f ["any_of", "all_of"] d [_, _]).2 ⟨rfl, hg⟩]
    simp only [Option.bind_eq_bind, Option.bind_eq_some_iff, Option.some.injEq, C143_int, C143_frac, phantom_iff]
    exact ⟨_, h0, _, h1, rfl⟩

/-- C143: a loaded cache is empty, whatever struct it is loaded from -/
theorem C143_statCache (E : Env) (Q Ent : Type) (c : Cache E Q Ent) : (statCache f E Q Ent).de d = some c ↔
    GivesFields f [] d ∧ c = [] := by
  simp only [statCache, Option.map_eq_some_iff]
  constructor
  · rintro ⟨ds, h, rfl⟩
    exact ⟨by simpa using ((C143_struct _ _ _ _).1 h).2, rfl⟩
  · rintro ⟨h, rfl⟩
    exact ⟨[], (C143_struct _ _ _ _).2 ⟨rfl, h⟩, rfl⟩

/-! ### enums -/

theorem untag_iff (names : List String) (hn : names.Nodup) (g : String ⊕ Nat) (i : Nat) :
    untag names g = some i ↔ ∃ h : i < names.length, IsVariant names[i] i g := by
  unfold untag IsVariant
  cases g with
  | inl s =>
    simp only [Sum.inl.injEq, reduceCtorEq, or_false]
    rw [List.findIdx?_eq_some_iff_getElem]
    constructor
    · rintro ⟨h, h1, -⟩
      exact ⟨h, (by simpa using h1 : names[i] = s).symm⟩
    · rintro ⟨h, rfl⟩
      refine ⟨h, by simp, fun j hj hjs => ?_⟩
      have := (List.Nodup.getElem_inj_iff hn).1 (by simpa using hjs : names[j] = names[i])
      omega
  | inr j =>
    simp only [Sum.inr.injEq, reduceCtorEq, false_or, Option.ite_none_right_eq_some, Option.some.injEq]
    constructor
    · rintro ⟨h, rfl⟩; exact ⟨h, rfl⟩
    · rintro ⟨h, rfl⟩; exact ⟨h, rfl⟩

/-- C143: `StatExists` -/
theorem C143_statExists (x : StatExists) : statExists.de d = some x ↔ d = .bool x.val := by
  unfold statExists bool
  cases d <;> simp
  constructor
  · rintro rfl; rfl
  · rintro rfl; rfl

/-- C143: `StatOnce` -/
theorem C143_statOnce (x : StatOnce F) : (statOnce f k).de d = some x ↔
    match x with
    | .notFound => ∃ g, d = .unitVariant g ∧ IsVariant "NotFound" 0 g
    | .found y => ∃ g d', d = .newtypeVariant g d' ∧ IsVariant "Found" 1 g ∧ k.de d' = some y
    | .foundMultiple => ∃ g, d = .unitVariant g ∧ IsVariant "FoundMultiple" 2 g := by
  have hu := untag_iff ["NotFound", "Found", "FoundMultiple"] (by decide)
  have h0 : ∀ g, untag ["NotFound", "Found", "FoundMultiple"] g = some 0 ↔ IsVariant "NotFound" 0 g := fun g =>
    (hu g 0).trans ⟨fun ⟨_, h⟩ => h, fun h => ⟨by decide, h⟩⟩
  have h1 : ∀ g, untag ["NotFound", "Found", "FoundMultiple"] g = some 1 ↔ IsVariant "Found" 1 g := fun g =>
    (hu g 1).trans ⟨fun ⟨_, h⟩ => h, fun h => ⟨by decide, h⟩⟩
  have h2 : ∀ g, untag ["NotFound", "Found", "FoundMultiple"] g = some 2 ↔ IsVariant "FoundMultiple" 2 g := fun g =>
    (hu g 2).trans ⟨fun ⟨_, h⟩ => h, fun h => ⟨by decide, h⟩⟩
  simp only [statOnce]
  constructor
  · intro h
    split at h
    · split at h
      · rename_i hg; cases h; exact ⟨_, rfl, (h0 _).1 hg⟩
      · rename_i hg; cases h; exact ⟨_, rfl, (h2 _).1 hg⟩
      · cases h
    · split at h
      · rename_i hg
        obtain ⟨y, hy, rfl⟩ := Option.map_eq_some_iff.1 h
        exact ⟨_, _, rfl, (h1 _).1 hg, hy⟩
      · cases h
    · cases h
  · intro h
    cases x with
    | notFound => obtain ⟨g, rfl, hg⟩ := h; simp only [(h0 g).2 hg]
    | found y => obtain ⟨g, d', rfl, hg, hy⟩ := h; simp only [(h1 g).2 hg, hy]; rfl
    | foundMultiple => obtain ⟨g, rfl, hg⟩ := h; simp only [(h2 g).2 hg]

/-- C143: `StatOperation` -/
theorem C143_statOp {V : Type} {D : StatValue V} (k : Operands D) (x : StatOp D) : (statOp f k).de d = some x ↔
    ∃ g d', d = .newtypeVariant g d' ∧
      match x with
      | .add y => IsVariant "Add" 0 g ∧ k.add.de d' = some y
      | .mul y => IsVariant "Mul" 1 g ∧ k.mul.de d' = some y
      | .or y => IsVariant "Or" 2 g ∧ k.bit.de d' = some y
      | .not y => IsVariant "Not" 3 g ∧ k.bit.de d' = some y
      | .min y => IsVariant "Min" 4 g ∧ k.bounds.de d' = some y
      | .max y => IsVariant "Max" 5 g ∧ k.bounds.de d' = some y
      | .base y => IsVariant "Base" 6 g ∧ k.base.de d' = some y := by
  have hu := untag_iff opNames (by decide)
  have h0 : ∀ g, untag opNames g = some 0 ↔ IsVariant "Add" 0 g := fun g =>
    (hu g 0).trans ⟨fun ⟨_, h⟩ => h, fun h => ⟨by decide, h⟩⟩
  have h1 : ∀ g, untag opNames g = some 1 ↔ IsVariant "Mul" 1 g := fun g =>
    (hu g 1).trans ⟨fun ⟨_, h⟩ => h, fun h => ⟨by decide, h⟩⟩
  have h2 : ∀ g, untag opNames g = some 2 ↔ IsVariant "Or" 2 g := fun g =>
    (hu g 2).trans ⟨fun ⟨_, h⟩ => h, fun h => ⟨by decide, h⟩⟩
  have h3 : ∀ g, untag opNames g = some 3 ↔ IsVariant "Not" 3 g := fun g =>
    (hu g 3).trans ⟨fun ⟨_, h⟩ => h, fun h => ⟨by decide, h⟩⟩
  have h4 : ∀ g, untag opNames g = some 4 ↔ IsVariant "Min" 4 g := fun g =>
    (hu g 4).trans ⟨fun ⟨_, h⟩ => h, fun h => ⟨by decide, h⟩⟩
  have h5 : ∀ g, untag opNames g = some 5 ↔ IsVariant "Max" 5 g := fun g =>
    (hu g 5).trans ⟨fun ⟨_, h⟩ => h, fun h => ⟨by decide, h⟩⟩
  have h6 : ∀ g, untag opNames g = some 6 ↔ IsVariant "Base" 6 g := fun g =>
    (hu g 6).trans ⟨fun ⟨_, h⟩ => h, fun h => ⟨by decide, h⟩⟩
  simp only [statOp]
  constructor
  · intro h
    split at h
    · refine ⟨_, _, rfl, ?_⟩
      split at h <;> rename_i hg <;> first
        | (obtain ⟨y, hy, rfl⟩ := Option.map_eq_some_iff.1 h
           first
            | exact ⟨(h0 _).1 hg, hy⟩ | exact ⟨(h1 _).1 hg, hy⟩ | exact ⟨(h2 _).1 hg, hy⟩ | exact ⟨(h3 _).1 hg, hy⟩
            | exact ⟨(h4 _).1 hg, hy⟩ | exact ⟨(h5 _).1 hg, hy⟩ | exact ⟨(h6 _).1 hg, hy⟩)
        | cases h
    · cases h
  · rintro ⟨g, d', rfl, h⟩
    cases x with
    | add y => simp only [(h0 g).2 h.1, h.2]; rfl
    | mul y => simp only [(h1 g).2 h.1, h.2]; rfl
    | or y => simp only [(h2 g).2 h.1, h.2]; rfl
    | not y => simp only [(h3 g).2 h.1, h.2]; rfl
    | min y => simp only [(h4 g).2 h.1, h.2]; rfl
    | max y => simp only [(h5 g).2 h.1, h.2]; rfl
    | base y => simp only [(h6 g).2 h.1, h.2]; rfl

end structs

/-! ### concrete cases -/

/-- by name, in another order and with a field that is not known; and by position -/
example : (statIntPercentAdditive ⟨true, true⟩ .i32).de (.fields [("rounding", .unit), ("max", .int 9), ("note", .str ""),
      ("min", .int (-9)), ("addend", .int 3), ("mult", .int 50)]) = some ⟨3, 50, -9, 9⟩ ∧
    (statIntPercentAdditive ⟨true, true⟩ .i32).de (.seq [.int 3, .int 50, .int (-9), .int 9, .unit]) =
      some ⟨3, 50, -9, 9⟩ := by decide

/-- one element too many is accepted only if the format does not object; a field that is there twice never, nor one that
is missing, even if it holds no information -/
example : (statFlags ⟨false, false⟩ (bits 8)).de (.seq [.int 1, .int 2, .int 3]) = some ⟨1, 2⟩ ∧
    (statFlags ⟨false, true⟩ (bits 8)).de (.seq [.int 1, .int 2, .int 3]) = none ∧
    (statFlags ⟨false, false⟩ (bits 8)).de (.fields [("not", .int 1), ("or", .int 2), ("or", .int 2)]) = none ∧
    (statIntPercentAdditive ⟨true, true⟩ .i32).de (.seq [.int 3, .int 50, .int (-9), .int 9]) = none := by decide

end Codec
end BSQ
