import Verif.Model.SerdeTypes
import Verif.Props.Serde
import Verif.Props.Base
/-!
# C65: the crate's types survive saving and loading
-/
namespace BSQ

/-- A type's impls are right for the values satisfying `P`: these are read back as written, and nothing else
is ever read, from any datum. -/
structure Codec.Exact {α : Type} (c : Codec α) (P : α → Prop) : Prop where
  roundtrip : ∀ x, P x → c.de (c.ser x) = some x
  sound : ∀ d x, c.de d = some x → P x

namespace Codec

/-! ### primitives -/

theorem C65_int (t : IntTy) : (int t).Exact t.InRange where
  roundtrip x hx := by simp [int, hx]
  sound d x h := by
    unfold int at h
    cases d <;> simp at h
    rw [← h.2]; exact h.1

theorem C65_bool : bool.Exact (fun _ => True) where
  roundtrip _ _ := rfl
  sound _ _ _ := trivial

theorem C65_float {g : Fmt} (hg : g.Normal) : (float g).Exact (Fl.Of g) where
  roundtrip x hx := by
    cases x with
    | fin q => simp [float, g.rnd_rep hg hx]
    | _ => rfl
  sound d x h := by
    unfold float at h
    cases d with
    | float y =>
      cases y with
      | fin q => simp at h; rw [← h]; exact Fl.of_rnd hg q
      | _ => simp at h; rw [← h]; trivial
    | int i => simp at h; rw [← h]; exact Fl.of_rnd hg _
    | _ => simp at h

theorem C65_bits (n : Nat) : (bits n).Exact (fun _ => True) where
  roundtrip x _ := by
    have : (x.toNat : Int) < 2 ^ n := by exact_mod_cast x.isLt
    simp [bits, this]
  sound _ _ _ := trivial

theorem C65_string : string.Exact (fun _ => True) where
  roundtrip _ _ := rfl
  sound _ _ _ := trivial

theorem C65_unsupported : unsupported.Exact (fun _ => True) where
  roundtrip x := x.elim
  sound _ _ _ := trivial

/-! ### fractions -/

/-- a fraction of the machine type, not necessarily in lowest terms: what can be loaded -/
def FracOf (t : IntTy) (x : Frac) : Prop := t.InRange x.num ∧ t.InRange x.den ∧ x.den ≠ 0

theorem deTuple_self (f : Format) (l : List Data) : deTuple f l.length l = some l := by
  simp [deTuple]

/-- **C65** Fractions: those with a nonzero denominator are read back as written. -/
theorem C65_frac (f : Format) (t : IntTy) : (frac f t).Exact (FracOf t) where
  roundtrip x hx := by
    obtain ⟨h1, h2, h3⟩ := hx
    have := deTuple_self f [(int t).ser x.num, (int t).ser x.den]
    simp only [List.length_cons, List.length_nil] at this
    simp only [frac, this]
    simp [(C65_int t).roundtrip _ h1, (C65_int t).roundtrip _ h2, h3]
  sound d x h := by
    unfold frac at h
    cases d with
    | seq l =>
      simp only at h
      split at h
      · rename_i a b _
        simp only [Option.bind_eq_bind, Option.bind_eq_some_iff] at h
        obtain ⟨n, hn, m, hm, h⟩ := h
        split at h
        · cases h
        · rename_i h0
          cases h
          exact ⟨(C65_int t).sound _ _ hn, (C65_int t).sound _ _ hm, h0⟩
      · cases h
    | _ => cases h

/-- C65: what is loaded need not be in lowest terms nor have a positive denominator, unlike anything built
with `Fraction::new`: `[2, 4]` and `[1, -2]` are accepted as they are -/
theorem C65_loads_unreduced (f : Format) :
    (frac f .i32).de (.seq [.int 2, .int 4]) = some ⟨2, 4⟩ ∧
    (frac f .i32).de (.seq [.int 1, .int (-2)]) = some ⟨1, -2⟩ ∧
    (frac f .i32).de (.seq [.int 1, .int 0]) = none := by
  obtain ⟨a, b⟩ := f
  cases a <;> cases b <;> decide

/-! ### structs -/

theorem deStruct_ser (f : Format) {names : List String} (hn : names.Nodup) {vals : List Data}
    (hl : vals.length = names.length) : deStruct f names (serStruct f names vals) = some vals :=
  deStruct_serStruct f names hn vals hl

section structs
variable (f : Format) (t : IntTy)

/-- **C65** `StatInt` -/
theorem C65_statInt : (statInt f t).Exact (fun x =>
    t.InRange x.addend ∧ t.InRange x.min ∧ t.InRange x.max ∧ t.InRange x.mult) where
  roundtrip x hx := by
    obtain ⟨h1, h2, h3, h4⟩ := hx
    simp [statInt, deStruct_ser f (by decide : ["addend", "min", "max", "mult"].Nodup),
      (C65_int t).roundtrip, *]
  sound d x h := by
    simp only [statInt] at h
    split at h
    · simp only [Option.bind_eq_bind, Option.bind_eq_some_iff, Option.some.injEq] at h
      obtain ⟨a, ha, b, hb, c, hc, d, hd, rfl⟩ := h
      exact ⟨(C65_int t).sound _ _ ha, (C65_int t).sound _ _ hb, (C65_int t).sound _ _ hc,
        (C65_int t).sound _ _ hd⟩
    · cases h

/-- **C65** `StatIntFraction` -/
theorem C65_statIntFraction : (statIntFraction f t).Exact (fun x =>
    t.InRange x.addend ∧ t.InRange x.min ∧ t.InRange x.max ∧ FracOf t x.mult) where
  roundtrip x hx := by
    obtain ⟨h1, h2, h3, h4⟩ := hx
    simp [statIntFraction, deStruct_ser f (by decide : ["addend", "min", "max", "mult", "rounding"].Nodup),
      (C65_int t).roundtrip, (C65_frac f t).roundtrip, phantom, *]
  sound d x h := by
    simp only [statIntFraction] at h
    split at h
    · simp only [Option.bind_eq_bind, Option.bind_eq_some_iff, Option.some.injEq] at h
      obtain ⟨a, ha, b, hb, c, hc, d, hd, _, _, rfl⟩ := h
      exact ⟨(C65_int t).sound _ _ ha, (C65_int t).sound _ _ hb, (C65_int t).sound _ _ hc,
        (C65_frac f t).sound _ _ hd⟩
    · cases h

/-- **C65** `StatIntFloatMul` -/
theorem C65_statIntFloatMul {F : Type} {k : Codec F} {P : F → Prop} (hk : k.Exact P) :
    (statIntFloatMul f t k).Exact (fun x =>
      t.InRange x.addend ∧ t.InRange x.min ∧ t.InRange x.max ∧ P x.mult) where
  roundtrip x hx := by
    obtain ⟨h1, h2, h3, h4⟩ := hx
    simp [statIntFloatMul, deStruct_ser f (by decide : ["addend", "min", "max", "mult", "rounding"].Nodup),
      (C65_int t).roundtrip, hk.roundtrip, phantom, *]
  sound d x h := by
    simp only [statIntFloatMul] at h
    split at h
    · simp only [Option.bind_eq_bind, Option.bind_eq_some_iff, Option.some.injEq] at h
      obtain ⟨a, ha, b, hb, c, hc, d, hd, _, _, rfl⟩ := h
      exact ⟨(C65_int t).sound _ _ ha, (C65_int t).sound _ _ hb, (C65_int t).sound _ _ hc,
        hk.sound _ _ hd⟩
    · cases h

/-- **C65** `StatIntPercentAdditive` -/
theorem C65_statIntPercentAdditive : (statIntPercentAdditive f t).Exact (fun x =>
    t.InRange x.addend ∧ t.InRange x.mult ∧ t.InRange x.min ∧ t.InRange x.max) where
  roundtrip x hx := by
    obtain ⟨h1, h2, h3, h4⟩ := hx
    simp [statIntPercentAdditive,
      deStruct_ser f (by decide : ["addend", "mult", "min", "max", "rounding"].Nodup),
      (C65_int t).roundtrip, phantom, *]
  sound d x h := by
    simp only [statIntPercentAdditive] at h
    split at h
    · simp only [Option.bind_eq_bind, Option.bind_eq_some_iff, Option.some.injEq] at h
      obtain ⟨a, ha, b, hb, c, hc, d, hd, _, _, rfl⟩ := h
      exact ⟨(C65_int t).sound _ _ ha, (C65_int t).sound _ _ hb, (C65_int t).sound _ _ hc,
        (C65_int t).sound _ _ hd⟩
    · cases h

/-- **C65** `StatIntPercent` -/
theorem C65_statIntPercent : (statIntPercent f t).Exact (fun x =>
    t.InRange x.addend ∧ FracOf t x.mult ∧ t.InRange x.min ∧ t.InRange x.max) where
  roundtrip x hx := by
    obtain ⟨h1, h2, h3, h4⟩ := hx
    simp [statIntPercent, deStruct_ser f (by decide : ["addend", "mult", "min", "max", "rounding"].Nodup),
      (C65_int t).roundtrip, (C65_frac f t).roundtrip, phantom, *]
  sound d x h := by
    simp only [statIntPercent] at h
    split at h
    · simp only [Option.bind_eq_bind, Option.bind_eq_some_iff, Option.some.injEq] at h
      obtain ⟨a, ha, b, hb, c, hc, d, hd, _, _, rfl⟩ := h
      exact ⟨(C65_int t).sound _ _ ha, (C65_frac f t).sound _ _ hb, (C65_int t).sound _ _ hc,
        (C65_int t).sound _ _ hd⟩
    · cases h

variable {F : Type} {k : Codec F} {P : F → Prop} (hk : k.Exact P)
include hk

/-- **C65** `StatFloat` -/
theorem C65_statFloat : (statFloat f k).Exact (fun x => P x.addend ∧ P x.min ∧ P x.max ∧ P x.mult) where
  roundtrip x hx := by
    obtain ⟨h1, h2, h3, h4⟩ := hx
    simp [statFloat, deStruct_ser f (by decide : ["addend", "min", "max", "mult"].Nodup), hk.roundtrip, *]
  sound d x h := by
    simp only [statFloat] at h
    split at h
    · simp only [Option.bind_eq_bind, Option.bind_eq_some_iff, Option.some.injEq] at h
      obtain ⟨a, ha, b, hb, c, hc, d, hd, rfl⟩ := h
      exact ⟨hk.sound _ _ ha, hk.sound _ _ hb, hk.sound _ _ hc, hk.sound _ _ hd⟩
    · cases h

/-- **C65** `StatFloatAdditive` -/
theorem C65_statFloatAdditive :
    (statFloatAdditive f k).Exact (fun x => P x.addend ∧ P x.min ∧ P x.max ∧ P x.mult) where
  roundtrip x hx := by
    obtain ⟨h1, h2, h3, h4⟩ := hx
    simp [statFloatAdditive, deStruct_ser f (by decide : ["addend", "min", "max", "mult"].Nodup),
      hk.roundtrip, *]
  sound d x h := by
    simp only [statFloatAdditive] at h
    split at h
    · simp only [Option.bind_eq_bind, Option.bind_eq_some_iff, Option.some.injEq] at h
      obtain ⟨a, ha, b, hb, c, hc, d, hd, rfl⟩ := h
      exact ⟨hk.sound _ _ ha, hk.sound _ _ hb, hk.sound _ _ hc, hk.sound _ _ hd⟩
    · cases h

/-- **C65** `StatMult` -/
theorem C65_statMult : (statMult f k).Exact (fun x => P x.min ∧ P x.max ∧ P x.mult) where
  roundtrip x hx := by
    obtain ⟨h1, h2, h3⟩ := hx
    simp [statMult, deStruct_ser f (by decide : ["min", "max", "mult"].Nodup), hk.roundtrip, *]
  sound d x h := by
    simp only [statMult] at h
    split at h
    · simp only [Option.bind_eq_bind, Option.bind_eq_some_iff, Option.some.injEq] at h
      obtain ⟨a, ha, b, hb, c, hc, rfl⟩ := h
      exact ⟨hk.sound _ _ ha, hk.sound _ _ hb, hk.sound _ _ hc⟩
    · cases h

/-- **C65** `StatFlags` -/
theorem C65_statFlags : (statFlags f k).Exact (fun x => P x.not ∧ P x.or) where
  roundtrip x hx := by
    obtain ⟨h1, h2⟩ := hx
    simp [statFlags, deStruct_ser f (by decide : ["not", "or"].Nodup), hk.roundtrip, *]
  sound d x h := by
    simp only [statFlags] at h
    split at h
    · simp only [Option.bind_eq_bind, Option.bind_eq_some_iff, Option.some.injEq] at h
      obtain ⟨a, ha, b, hb, rfl⟩ := h
      exact ⟨hk.sound _ _ ha, hk.sound _ _ hb⟩
    · cases h

/-- **C65** `Prioritized` -/
theorem C65_prioritized : (prioritized f k).Exact (fun x => P x.value ∧ IntTy.i32.InRange x.priority) where
  roundtrip x hx := by
    obtain ⟨h1, h2⟩ := hx
    simp [prioritized, deStruct_ser f (by decide : ["value", "priority"].Nodup), hk.roundtrip,
      (C65_int _).roundtrip, *]
  sound d x h := by
    simp only [prioritized] at h
    split at h
    · simp only [Option.bind_eq_bind, Option.bind_eq_some_iff, Option.some.injEq] at h
      obtain ⟨a, ha, b, hb, rfl⟩ := h
      exact ⟨hk.sound _ _ ha, (C65_int _).sound _ _ hb⟩
    · cases h

/-- **C65** `Qualifier` -/
theorem C65_qualifier : (qualifier f k).Exact (fun x => P x.anyOf ∧ P x.allOf) where
  roundtrip x hx := by
    obtain ⟨h1, h2⟩ := hx
    simp [qualifier, deStruct_ser f (by decide : ["any_of", "all_of"].Nodup), hk.roundtrip, *]
  sound d x h := by
    simp only [qualifier] at h
    split at h
    · simp only [Option.bind_eq_bind, Option.bind_eq_some_iff, Option.some.injEq] at h
      obtain ⟨a, ha, b, hb, rfl⟩ := h
      exact ⟨hk.sound _ _ ha, hk.sound _ _ hb⟩
    · cases h

/-! ### enums -/

omit hk in
theorem untag_tag (names : List String) (hn : names.Nodup) (i : Nat) (hi : i < names.length) :
    untag names (tag f names i) = some i := by
  unfold tag
  split
  · simp only [untag, List.getD_eq_getElem?_getD, List.getElem?_eq_getElem hi, Option.getD_some]
    rw [List.findIdx?_eq_some_iff_getElem]
    refine ⟨hi, by simp, fun j hj => ?_⟩
    have := List.nodup_iff_injective_getElem.1 hn
    intro he
    simp only [beq_iff_eq] at he
    have := @this ⟨j, by omega⟩ ⟨i, hi⟩ he
    simp at this
    omega
  · simp [untag, hi]

/-- **C65** `StatOnce` -/
theorem C65_statOnce : (statOnce f k).Exact (fun x => ∀ y, x = .found y → P y) where
  roundtrip x hx := by
    have hn : ["NotFound", "Found", "FoundMultiple"].Nodup := by decide
    have t0 := untag_tag f _ hn 0 (by decide)
    have t1 := untag_tag f _ hn 1 (by decide)
    have t2 := untag_tag f _ hn 2 (by decide)
    cases x with
    | notFound => simp [statOnce, t0]
    | found y => simp [statOnce, t1, hk.roundtrip y (hx y rfl)]
    | foundMultiple => simp [statOnce, t2]
  sound d x h := by
    intro y hy
    subst hy
    simp only [statOnce] at h
    split at h
    · split at h <;> cases h
    · split at h
      · simp only [Option.map_eq_some_iff] at h
        obtain ⟨z, hz, he⟩ := h
        cases he
        exact hk.sound _ _ hz
      · cases h
    · cases h

end structs

/-- **C65** `StatExists` -/
theorem C65_statExists : statExists.Exact (fun _ => True) where
  roundtrip _ _ := rfl
  sound _ _ _ := trivial

/-- an operation whose operand satisfies what its type's impls are right for -/
def OpOk {V : Type} {D : StatValue V} (pa : D.AddT → Prop) (pm : D.MulT → Prop) (pb : D.BitT → Prop)
    (po : D.BoundsT → Prop) (px : D.BaseT → Prop) : StatOp D → Prop
  | .add x => pa x
  | .mul x => pm x
  | .or x => pb x
  | .not x => pb x
  | .min x => po x
  | .max x => po x
  | .base x => px x

/-- **C65** `StatOperation` -/
theorem C65_statOp (f : Format) {V : Type} {D : StatValue V} (k : Operands D) {pa : D.AddT → Prop}
    {pm : D.MulT → Prop} {pb : D.BitT → Prop} {po : D.BoundsT → Prop} {px : D.BaseT → Prop}
    (ha : k.add.Exact pa) (hm : k.mul.Exact pm) (hb : k.bit.Exact pb) (ho : k.bounds.Exact po)
    (hx : k.base.Exact px) : (statOp f k).Exact (OpOk pa pm pb po px) where
  roundtrip x h := by
    have hn : opNames.Nodup := by decide
    have tg : ∀ i, i < 7 → untag opNames (tag f opNames i) = some i :=
      fun i hi => untag_tag f _ hn i hi
    cases x with
    | add x => simp [statOp, tg 0 (by decide), ha.roundtrip x h]
    | mul x => simp [statOp, tg 1 (by decide), hm.roundtrip x h]
    | or x => simp [statOp, tg 2 (by decide), hb.roundtrip x h]
    | not x => simp [statOp, tg 3 (by decide), hb.roundtrip x h]
    | min x => simp [statOp, tg 4 (by decide), ho.roundtrip x h]
    | max x => simp [statOp, tg 5 (by decide), ho.roundtrip x h]
    | base x => simp [statOp, tg 6 (by decide), hx.roundtrip x h]
  sound d x h := by
    simp only [statOp] at h
    split at h
    · split at h <;> first
        | cases h
          done
        | (simp only [Option.map_eq_some_iff] at h
           obtain ⟨z, hz, rfl⟩ := h
           first
             | exact ha.sound _ _ hz
             | exact hm.sound _ _ hz
             | exact hb.sound _ _ hz
             | exact ho.sound _ _ hz
             | exact hx.sound _ _ hz)
    · cases h

/-- C65: a saved cache is empty, and so is whatever is loaded as one -/
theorem C65_cache_empty (f : Format) (E : Env) (Q Ent : Type) (c : Cache E Q Ent) :
    (statCache f E Q Ent).de ((statCache f E Q Ent).ser c) = some [] ∧
    ∀ d c', (statCache f E Q Ent).de d = some c' → c' = [] := by
  constructor
  · simp [statCache, deStruct_ser f (by decide : ([] : List String).Nodup)]
  · intro d c' h
    simp only [statCache, Option.map_eq_some_iff] at h
    obtain ⟨_, _, rfl⟩ := h
    rfl

/-! ### what is written does not depend on the order of fields -/

theorem deField_perm {fs fs' : List (String × Data)} (h : fs.Perm fs') (n : String) :
    deField fs n = deField fs' n := by
  have hp := h.filter (fun f => f.1 == n)
  unfold deField
  generalize fs.filter (fun f => f.1 == n) = a at hp ⊢
  generalize fs'.filter (fun f => f.1 == n) = b at hp ⊢
  match a, b, hp.length_eq with
  | [], [], _ => rfl
  | [x], [y], _ => rw [List.perm_singleton.1 hp]
  | _ :: _ :: _, _ :: _ :: _, _ => rfl

/-- **C65** Structs are read the same with their fields in any order and with unknown fields added. -/
theorem C65_field_order (f : Format) (names : List String) {fs fs' extra : List (String × Data)}
    (h : fs'.Perm (fs ++ extra)) (hx : ∀ e ∈ extra, e.1 ∉ names) :
    deStruct f names (.fields fs') = deStruct f names (.fields fs) := by
  simp only [deStruct]
  have : ∀ n ∈ names, deField fs' n = deField fs n := by
    intro n hn
    rw [deField_perm h]
    have : extra.filter (fun f => f.1 == n) = [] := by
      rw [List.filter_eq_nil_iff]
      intro e he hen
      simp only [beq_iff_eq] at hen
      exact hx e he (hen ▸ hn)
    simp [deField, List.filter_append, this]
  clear h
  induction names with
  | nil => rfl
  | cons n ns ih =>
    simp only [List.mapM_cons, this n (by simp)]
    rw [ih (fun e he hm => hx e he (by simp [hm])) (fun m hm => this m (by simp [hm]))]

/-! ### the hypotheses are met by real values -/

/-- the defaults of integer stats (C16) -/
example : (IntTy.i32.InRange 0 ∧ IntTy.i32.InRange (-2147483648) ∧ IntTy.i32.InRange 2147483647 ∧
    IntTy.i32.InRange 1) ∧ FracOf .i32 ⟨-43, 47⟩ := by
  unfold FracOf; decide

/-- the defaults of `f32` stats -/
example : (float .f32).de ((float .f32).ser (.fin Fmt.f32.maxVal)) = some (.fin Fmt.f32.maxVal) ∧
    (float .f32).de ((float .f32).ser (.fin (7 / 2))) = some (.fin (7 / 2)) := by
  have h := C65_float Fmt.normal_f32
  refine ⟨h.roundtrip _ ⟨2 ^ 24 - 1, 104, ?_, ?_, by decide, ?_⟩, h.roundtrip _ ⟨7, -1, ?_, ?_, by decide, ?_⟩⟩
  all_goals norm_num [Fmt.f32, Fmt.maxVal, abs_of_pos]

/-- fields in another order, one unknown: still the same value -/
example : (statInt ⟨true, true⟩ .i32).de (.fields [("mult", .int 2), ("note", .str "x"), ("min", .int (-5)),
    ("addend", .int 3), ("max", .int 9)]) = some ⟨3, -5, 9, 2⟩ := by decide

end Codec
end BSQ
