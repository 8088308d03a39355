import Verif.Spec.Json
import Verif.Props.SaveLoad
import Verif.Props.Assembled
/-!
# C129: what JSON makes of saved maps
-/
set_option linter.unusedSectionVars false
namespace BSQ

theorem Data.jsonAll_eq (l : List Data) : Data.jsonAll l = l.map Data.json := by
  induction l with
  | nil => rfl
  | cons d l ih => simp [Data.jsonAll, ih]

theorem Data.jsonFields_eq (l : List (String × Data)) :
    Data.jsonFields l = l.map (fun x => (x.1, x.2.json)) := by
  induction l with
  | nil => rfl
  | cons d l ih => simp [Data.jsonFields, ih]

theorem Data.json_struct (f : Format) (names : List String) (vals : List Data) :
    (serStruct f names vals).json = serStruct f names (vals.map Data.json) := by
  unfold serStruct
  split
  · simp only [Data.json, Data.jsonFields_eq, Data.fields.injEq]
    induction names generalizing vals with
    | nil => simp
    | cons n names ih => cases vals <;> simp [ih]
  · simp [Data.json, Data.jsonAll_eq]

namespace Codec

/-- impls that write nothing but what JSON keeps -/
theorem ThroughJson.plain {α : Type} {c : Codec α} {P : α → Prop} (h : c.Exact P)
    (hp : ∀ x, (c.ser x).json = c.ser x) : c.ThroughJson P (fun _ => True) where
  kept x hx _ := by rw [hp, h.roundtrip x hx]
  lost x hx := absurd trivial hx

theorem C129_int (t : IntTy) : (int t).ThroughJson t.InRange (fun _ => True) :=
  .plain (C65_int t) fun _ => rfl

theorem C129_bool : bool.ThroughJson (fun _ => True) (fun _ => True) := .plain C65_bool fun _ => rfl

theorem C129_bits (n : Nat) : (bits n).ThroughJson (fun _ => True) (fun _ => True) :=
  .plain (C65_bits n) fun _ => rfl

theorem C129_string : string.ThroughJson (fun _ => True) (fun _ => True) := .plain C65_string fun _ => rfl

theorem C129_statExists : statExists.ThroughJson (fun _ => True) (fun _ => True) :=
  .plain C65_statExists fun _ => rfl

/-- **C129** Floating point numbers: the finite ones are kept, infinities and NaN are refused when loading. -/
theorem C129_float {g : Fmt} (hg : g.Normal) : (float g).ThroughJson (Fl.Of g) Fl.Finite where
  kept x hx hf := by
    obtain ⟨q, rfl⟩ := hf
    exact (C65_float hg).roundtrip _ hx
  lost x hx := by
    cases x with
    | fin q => exact absurd ⟨q, rfl⟩ hx
    | _ => rfl

section
variable (f : Format) (t : IntTy)

theorem C129_frac : (frac f t).ThroughJson (FracOf t) (fun _ => True) :=
  .plain (C65_frac f t) fun _ => by simp [frac, Data.json, Data.jsonAll, int]

theorem C129_statInt : (statInt f t).ThroughJson (fun x =>
    t.InRange x.addend ∧ t.InRange x.min ∧ t.InRange x.max ∧ t.InRange x.mult) (fun _ => True) :=
  .plain (C65_statInt f t) fun _ => by simp [statInt, Data.json_struct, Data.json, int]

theorem C129_statIntFraction : (statIntFraction f t).ThroughJson (fun x =>
    t.InRange x.addend ∧ t.InRange x.min ∧ t.InRange x.max ∧ FracOf t x.mult) (fun _ => True) :=
  .plain (C65_statIntFraction f t) fun _ => by
    simp [statIntFraction, Data.json_struct, Data.json, Data.jsonAll, int, frac, phantom]

theorem C129_statIntPercentAdditive : (statIntPercentAdditive f t).ThroughJson (fun x =>
    t.InRange x.addend ∧ t.InRange x.mult ∧ t.InRange x.min ∧ t.InRange x.max) (fun _ => True) :=
  .plain (C65_statIntPercentAdditive f t) fun _ => by
    simp [statIntPercentAdditive, Data.json_struct, Data.json, int, phantom]

theorem C129_statIntPercent : (statIntPercent f t).ThroughJson (fun x =>
    t.InRange x.addend ∧ FracOf t x.mult ∧ t.InRange x.min ∧ t.InRange x.max) (fun _ => True) :=
  .plain (C65_statIntPercent f t) fun _ => by
    simp [statIntPercent, Data.json_struct, Data.json, Data.jsonAll, int, frac, phantom]

variable {F : Type} {k : Codec F} {P Fin : F → Prop} (hk : k.ThroughJson P Fin)
include hk

/-- **C129** `StatIntFloatMul` -/
theorem C129_statIntFloatMul : (statIntFloatMul f t k).ThroughJson
    (fun x => t.InRange x.addend ∧ t.InRange x.min ∧ t.InRange x.max ∧ P x.mult) (fun x => Fin x.mult) where
  kept x hx hf := by
    obtain ⟨h1, h2, h3, h4⟩ := hx
    simp [statIntFloatMul, Data.json_struct,
      deStruct_ser f (by decide : ["addend", "min", "max", "mult", "rounding"].Nodup),
      (C129_int t).kept, hk.kept _ h4 hf, phantom, Data.json, *]
  lost x hx := by
    simp [statIntFloatMul, Data.json_struct,
      deStruct_ser f (by decide : ["addend", "min", "max", "mult", "rounding"].Nodup), hk.lost _ hx]

/-- **C129** `StatFloat` -/
theorem C129_statFloat : (statFloat f k).ThroughJson (fun x => P x.addend ∧ P x.min ∧ P x.max ∧ P x.mult)
    (fun x => Fin x.addend ∧ Fin x.min ∧ Fin x.max ∧ Fin x.mult) where
  kept x hx hf := by
    obtain ⟨h1, h2, h3, h4⟩ := hx
    obtain ⟨f1, f2, f3, f4⟩ := hf
    simp [statFloat, Data.json_struct, deStruct_ser f (by decide : ["addend", "min", "max", "mult"].Nodup),
      hk.kept, *]
  lost x hx := by
    simp only [statFloat, Data.json_struct, List.map_cons, List.map_nil,
      deStruct_ser f (by decide : ["addend", "min", "max", "mult"].Nodup)
        (show [(k.ser x.addend).json, (k.ser x.min).json, (k.ser x.max).json, (k.ser x.mult).json].length = _ from rfl)]
    by_cases f1 : Fin x.addend
    · by_cases f2 : Fin x.min
      · by_cases f3 : Fin x.max
        · have f4 : ¬ Fin x.mult := fun h => hx ⟨f1, f2, f3, h⟩
          simp [hk.lost _ f4]
        · simp [hk.lost _ f3]
      · simp [hk.lost _ f2]
    · simp [hk.lost _ f1]

/-- **C129** `StatFloatAdditive` -/
theorem C129_statFloatAdditive : (statFloatAdditive f k).ThroughJson
    (fun x => P x.addend ∧ P x.min ∧ P x.max ∧ P x.mult)
    (fun x => Fin x.addend ∧ Fin x.min ∧ Fin x.max ∧ Fin x.mult) where
  kept x hx hf := by
    obtain ⟨h1, h2, h3, h4⟩ := hx
    obtain ⟨f1, f2, f3, f4⟩ := hf
    simp [statFloatAdditive, Data.json_struct,
      deStruct_ser f (by decide : ["addend", "min", "max", "mult"].Nodup), hk.kept, *]
  lost x hx := by
    simp only [statFloatAdditive, Data.json_struct, List.map_cons, List.map_nil,
      deStruct_ser f (by decide : ["addend", "min", "max", "mult"].Nodup)
        (show [(k.ser x.addend).json, (k.ser x.min).json, (k.ser x.max).json, (k.ser x.mult).json].length = _ from rfl)]
    by_cases f1 : Fin x.addend
    · by_cases f2 : Fin x.min
      · by_cases f3 : Fin x.max
        · have f4 : ¬ Fin x.mult := fun h => hx ⟨f1, f2, f3, h⟩
          simp [hk.lost _ f4]
        · simp [hk.lost _ f3]
      · simp [hk.lost _ f2]
    · simp [hk.lost _ f1]

/-- **C129** `StatMult` -/
theorem C129_statMult : (statMult f k).ThroughJson (fun x => P x.min ∧ P x.max ∧ P x.mult)
    (fun x => Fin x.min ∧ Fin x.max ∧ Fin x.mult) where
  kept x hx hf := by
    obtain ⟨h1, h2, h3⟩ := hx
    obtain ⟨f1, f2, f3⟩ := hf
    simp [statMult, Data.json_struct, deStruct_ser f (by decide : ["min", "max", "mult"].Nodup), hk.kept, *]
  lost x hx := by
    simp only [statMult, Data.json_struct, List.map_cons, List.map_nil,
      deStruct_ser f (by decide : ["min", "max", "mult"].Nodup)
        (show [(k.ser x.min).json, (k.ser x.max).json, (k.ser x.mult).json].length = _ from rfl)]
    by_cases f1 : Fin x.min
    · by_cases f2 : Fin x.max
      · have f3 : ¬ Fin x.mult := fun h => hx ⟨f1, f2, h⟩
        simp [hk.lost _ f3]
      · simp [hk.lost _ f2]
    · simp [hk.lost _ f1]

/-- **C129** `StatFlags` -/
theorem C129_statFlags : (statFlags f k).ThroughJson (fun x => P x.not ∧ P x.or) (fun x => Fin x.not ∧ Fin x.or) where
  kept x hx hf := by
    obtain ⟨h1, h2⟩ := hx
    obtain ⟨f1, f2⟩ := hf
    simp [statFlags, Data.json_struct, deStruct_ser f (by decide : ["not", "or"].Nodup), hk.kept, *]
  lost x hx := by
    simp only [statFlags, Data.json_struct, List.map_cons, List.map_nil,
      deStruct_ser f (by decide : ["not", "or"].Nodup)
        (show [(k.ser x.not).json, (k.ser x.or).json].length = _ from rfl)]
    by_cases f1 : Fin x.not
    · simp [hk.lost _ (fun h => hx ⟨f1, h⟩)]
    · simp [hk.lost _ f1]

/-- **C129** `Prioritized` -/
theorem C129_prioritized : (prioritized f k).ThroughJson
    (fun x => P x.value ∧ IntTy.i32.InRange x.priority) (fun x => Fin x.value) where
  kept x hx hf := by
    obtain ⟨h1, h2⟩ := hx
    simp [prioritized, Data.json_struct, deStruct_ser f (by decide : ["value", "priority"].Nodup), hk.kept _ h1 hf,
      (C129_int .i32).kept _ h2 trivial]
  lost x hx := by
    simp [prioritized, Data.json_struct, deStruct_ser f (by decide : ["value", "priority"].Nodup), hk.lost _ hx]

/-- **C129** `Qualifier` -/
theorem C129_qualifier : (qualifier f k).ThroughJson (fun x => P x.anyOf ∧ P x.allOf)
    (fun x => Fin x.anyOf ∧ Fin x.allOf) where
  kept x hx hf := by
    obtain ⟨h1, h2⟩ := hx
    obtain ⟨f1, f2⟩ := hf
    simp [qualifier, Data.json_struct, deStruct_ser f (by decide : ["any_of", "all_of"].Nodup), hk.kept, *]
  lost x hx := by
    simp only [qualifier, Data.json_struct, List.map_cons, List.map_nil,
      deStruct_ser f (by decide : ["any_of", "all_of"].Nodup)
        (show [(k.ser x.anyOf).json, (k.ser x.allOf).json].length = _ from rfl)]
    by_cases f1 : Fin x.anyOf
    · simp [hk.lost _ (fun h => hx ⟨f1, h⟩)]
    · simp [hk.lost _ f1]

/-- **C129** `StatOnce` -/
theorem C129_statOnce : (statOnce f k).ThroughJson (fun x => ∀ y, x = .found y → P y)
    (fun x => ∀ y, x = .found y → Fin y) where
  kept x hx hf := by
    have hn : ["NotFound", "Found", "FoundMultiple"].Nodup := by decide
    have t0 := untag_tag f _ hn 0 (by decide)
    have t1 := untag_tag f _ hn 1 (by decide)
    have t2 := untag_tag f _ hn 2 (by decide)
    cases x with
    | notFound => simp [statOnce, Data.json, t0]
    | found y => simp [statOnce, Data.json, t1, hk.kept y (hx y rfl) (hf y rfl)]
    | foundMultiple => simp [statOnce, Data.json, t2]
  lost x hx := by
    have hn : ["NotFound", "Found", "FoundMultiple"].Nodup := by decide
    have t1 := untag_tag f _ hn 1 (by decide)
    cases x with
    | notFound => exact absurd (fun y h => nomatch h) hx
    | found y =>
      have : ¬ Fin y := fun h => hx (fun z hz => by cases hz; exact h)
      simp [statOnce, Data.json, t1, hk.lost y this]
    | foundMultiple => exact absurd (fun y h => nomatch h) hx

end

/-- **C129** `StatOperation` -/
theorem C129_statOp (f : Format) {V : Type} {D : StatValue V} (k : Operands D) {pa fa : D.AddT → Prop}
    {pm fm : D.MulT → Prop} {pb fb : D.BitT → Prop} {po fo : D.BoundsT → Prop} {px fx : D.BaseT → Prop}
    (ha : k.add.ThroughJson pa fa) (hm : k.mul.ThroughJson pm fm) (hb : k.bit.ThroughJson pb fb)
    (ho : k.bounds.ThroughJson po fo) (hx : k.base.ThroughJson px fx) :
    (statOp f k).ThroughJson (OpOk pa pm pb po px) (OpOk fa fm fb fo fx) := by
  have hn : opNames.Nodup := by decide
  have t0 := untag_tag f _ hn 0 (by decide)
  have t1 := untag_tag f _ hn 1 (by decide)
  have t2 := untag_tag f _ hn 2 (by decide)
  have t3 := untag_tag f _ hn 3 (by decide)
  have t4 := untag_tag f _ hn 4 (by decide)
  have t5 := untag_tag f _ hn 5 (by decide)
  have t6 := untag_tag f _ hn 6 (by decide)
  constructor
  · intro x h h'
    cases x with
    | add y => simp [statOp, Data.json, t0, ha.kept y h h']
    | mul y => simp [statOp, Data.json, t1, hm.kept y h h']
    | or y => simp [statOp, Data.json, t2, hb.kept y h h']
    | not y => simp [statOp, Data.json, t3, hb.kept y h h']
    | min y => simp [statOp, Data.json, t4, ho.kept y h h']
    | max y => simp [statOp, Data.json, t5, ho.kept y h h']
    | base y => simp [statOp, Data.json, t6, hx.kept y h h']
  · intro x h
    cases x with
    | add y => simp [statOp, Data.json, t0, ha.lost y h]
    | mul y => simp [statOp, Data.json, t1, hm.lost y h]
    | or y => simp [statOp, Data.json, t2, hb.lost y h]
    | not y => simp [statOp, Data.json, t3, hb.lost y h]
    | min y => simp [statOp, Data.json, t4, ho.lost y h]
    | max y => simp [statOp, Data.json, t5, ho.lost y h]
    | base y => simp [statOp, Data.json, t6, hx.lost y h]

end Codec

/-! ### maps -/

section
variable {E : Env} {Q : Type} [DecidableEq Q] [Ord Q] [Std.TransOrd Q] [Std.LawfulEqOrd Q] (A : Addr E)

/-- saved entries after JSON: either all are read back, or, if the value of one is lost, nothing is -/
theorem Serde.json_entries (X : Serde E Q) (P Fin : (u : E.U) → E.El u → Prop) (reg : Registry E) (l : StatMap E Q)
    (hq : ∀ e ∈ l, X.deQ (X.serQ e.qual).json = some e.qual)
    (hv : ∀ u, (⟨X.ser u, X.de u⟩ : Codec (E.El u)).ThroughJson (P u) (Fin u))
    (hty : ∀ e ∈ l, ∃ x : e.stat.Val, e.buf = .val e.stat.ty x ∧ Storable (E.layout e.stat.ty) ∧ P _ x)
    (hsup : ∀ e ∈ l, X.supported e.stat.vt = true)
    (hreg : ∀ e ∈ l, ∃ n, e.stat.name = .ok n ∧ reg n = some e.stat) :
    ∃ ds, X.serEntries l = .ok ds ∧
      ((∀ e ∈ l, ∀ x : e.stat.Val, e.buf = .val e.stat.ty x → Fin _ x) →
        X.deEntries (.registry reg) (ds.map Data.json) = .ok (some l)) ∧
      ((∃ e ∈ l, ∃ x : e.stat.Val, e.buf = .val e.stat.ty x ∧ ¬ Fin _ x) →
        X.deEntries (.registry reg) (ds.map Data.json) = .ok none) := by
  induction l with
  | nil => exact ⟨[], rfl, fun _ => rfl, fun ⟨e, h, _⟩ => nomatch h⟩
  | cons e l ih =>
    obtain ⟨ds, i1, i2, i3⟩ := ih (fun y h => hq y (by simp [h])) (fun y h => hty y (by simp [h]))
      (fun y h => hsup y (by simp [h])) (fun y h => hreg y (by simp [h]))
    obtain ⟨s, q, b⟩ := e
    obtain ⟨x, hx, hs, hp⟩ := hty ⟨s, q, b⟩ (by simp)
    obtain ⟨n, hn, hr⟩ := hreg ⟨s, q, b⟩ (by simp)
    have hu := hsup ⟨s, q, b⟩ (by simp)
    have hq0 := hq ⟨s, q, b⟩ (by simp)
    dsimp only at x hx hs hp hn hr hu hq0
    subst hx
    have hd : X.serEntry ⟨s, q, .val s.ty x⟩ = .ok (.seq [X.serQ q, .str n, X.ser s.ty x]) := by
      simp [Serde.serEntry, hn, Serde.asSerialize, hu, Buf.read_val hs]
    refine ⟨.seq [X.serQ q, .str n, X.ser s.ty x] :: ds, by simp [Serde.serEntries, hd, i1], ?_, ?_⟩
    · intro hf
      have h0 := (hv s.ty).kept x hp (hf ⟨s, q, .val s.ty x⟩ (by simp) x rfl)
      have h1 := i2 (fun y h => hf y (by simp [h]))
      simp only at h0
      have he : X.deEntry (.registry reg) (Data.json (.seq [X.serQ q, .str n, X.ser s.ty x])) =
          .ok (some ⟨s, q, .val s.ty x⟩) := by
        have h3 : X.deValue s (X.ser s.ty x).json = .ok (some (.val s.ty x)) := by
          simp only [Serde.deValue, hu, if_true, validate_eq, hs, Res.bind_ok, h0, Buf.from_eq]
        simp [Data.json, Data.jsonAll, Serde.deEntry, hq0, Serde.deSecond, Serde.deStat, hr, Serde.deThird, h3]
      simp [Serde.deEntries, he, h1]
    · rintro ⟨y, hy, z, hz, hnf⟩
      by_cases h0 : Fin s.ty x
      · have h0' := (hv s.ty).kept x hp h0
        simp only at h0'
        have he : X.deEntry (.registry reg) (Data.json (.seq [X.serQ q, .str n, X.ser s.ty x])) =
            .ok (some ⟨s, q, .val s.ty x⟩) := by
          have h3 : X.deValue s (X.ser s.ty x).json = .ok (some (.val s.ty x)) := by
            simp only [Serde.deValue, hu, if_true, validate_eq, hs, Res.bind_ok, h0', Buf.from_eq]
          simp [Data.json, Data.jsonAll, Serde.deEntry, hq0, Serde.deSecond, Serde.deStat, hr, Serde.deThird, h3]
        have h1 : X.deEntries (.registry reg) (ds.map Data.json) = .ok none := by
          refine i3 ?_
          rcases List.mem_cons.1 hy with rfl | hy
          · cases hz
            exact absurd h0 hnf
          · exact ⟨y, hy, z, hz, hnf⟩
        simp [Serde.deEntries, he, h1]
      · have h0' := (hv s.ty).lost x h0
        simp only at h0'
        have he : X.deEntry (.registry reg) (Data.json (.seq [X.serQ q, .str n, X.ser s.ty x])) = .ok none := by
          have h3 : X.deValue s (X.ser s.ty x).json = .ok none := by
            simp only [Serde.deValue, hu, if_true, validate_eq, hs, Res.bind_ok, h0']
          simp [Data.json, Data.jsonAll, Serde.deEntry, hq0, Serde.deSecond, Serde.deStat, hr, Serde.deThird, h3]
        simp [Serde.deEntries, he]

/-- **C129** A reachable map of valid values is saved as JSON without an error.  It is loaded exactly as it was if all
its values are finite; if one value is not, nothing of the map is loaded. -/
theorem C129_map (X : Serde E Q) (P Fin : (u : E.U) → E.El u → Prop) (h : List (MapOp E Q)) (m : StatMap E Q)
    (hm : StatMap.run A h = .ok m) (reg : Registry E)
    (hq : ∀ e ∈ m, X.deQ (X.serQ e.qual).json = some e.qual)
    (hv : ∀ u, (⟨X.ser u, X.de u⟩ : Codec (E.El u)).ThroughJson (P u) (Fin u))
    (hp : ∀ e ∈ m, ∀ x : e.stat.Val, e.buf = .val e.stat.ty x → P _ x)
    (hsup : ∀ e ∈ m, X.supported e.stat.vt = true)
    (hreg : ∀ e ∈ m, ∃ n, e.stat.name = .ok n ∧ reg n = some e.stat) :
    ∃ d, X.serMap m = .ok d ∧
      ((∀ e ∈ m, ∀ x : e.stat.Val, e.buf = .val e.stat.ty x → Fin _ x) →
        X.deMap (.registry reg) d.json = .ok (some m)) ∧
      ((∃ e ∈ m, ∃ x : e.stat.Val, e.buf = .val e.stat.ty x ∧ ¬ Fin _ x) →
        X.deMap (.registry reg) d.json = .ok none) := by
  obtain ⟨a, _, r⟩ := reachRep A hm
  obtain ⟨ds, h1, h2, h3⟩ := X.json_entries P Fin reg m hq hv
    (fun e he => by obtain ⟨x, _, hx, hs⟩ := r.mem he; exact ⟨x, hx, hs, hp e he x hx⟩) hsup hreg
  refine ⟨serStruct X.fmt ["inner"] [.seq ds], by simp [Serde.serMap, h1], fun h => ?_, fun h => ?_⟩
  · simp [Serde.deMap, Data.json_struct, deStruct_serStruct, Data.json, Data.jsonAll_eq, h2 h]
  · simp [Serde.deMap, Data.json_struct, deStruct_serStruct, Data.json, Data.jsonAll_eq, h3 h]

/-- the crate's own impls for `StatFloat<f32>`, the qualifier being `bool` flags -/
abbrev floatSerde : Serde (solo (statFloat (Fl.ops .f32))) Bool where
  serQ := (Codec.qualifier ⟨true, true⟩ .bool).ser
  deQ := (Codec.qualifier ⟨true, true⟩ .bool).de
  ser _ := (Codec.statFloat ⟨true, true⟩ (.float .f32)).ser
  de _ := (Codec.statFloat ⟨true, true⟩ (.float .f32)).de
  supported _ := true
  fmt := ⟨true, true⟩

/-- `f32::MAX` -/
abbrev f32Max : Fl := (Fl.ops .f32).maxValue

/-- one operation made once and twice -/
theorem solo_modify_twice {V : Type} {D : StatValue V} (o : StatOp D) (v w : V) (h1 : o.intoStat = .ok v)
    (h2 : o.writeTo v = .ok w) :
    StatMap.run (Q := Bool) (soloAddr D) [.modify ⟨false, false⟩ (soloStat D) o] =
      .ok [⟨soloStat D, ⟨false, false⟩, .val () v⟩] ∧
    StatMap.run (Q := Bool) (soloAddr D) [.modify ⟨false, false⟩ (soloStat D) o, .modify ⟨false, false⟩ (soloStat D) o] =
      .ok [⟨soloStat D, ⟨false, false⟩, .val () w⟩] := by
  have a1 : StatMap.modify (Q := Bool) (soloAddr D) [] ⟨false, false⟩ (soloStat D) o =
      .ok [⟨soloStat D, ⟨false, false⟩, .val () v⟩] := by
    have g : StatMap.get (Q := Bool) (soloAddr D) [] ⟨false, false⟩ (soloStat D) = .ok none := rfl
    simp only [StatMap.modify, g, Res.bind_ok]
    rw [show o.intoStat (D := D) = .ok v from h1]
    rfl
  have a2 : StatMap.modify (Q := Bool) (soloAddr D) [⟨soloStat D, ⟨false, false⟩, .val () v⟩] ⟨false, false⟩
      (soloStat D) o = .ok [⟨soloStat D, ⟨false, false⟩, .val () w⟩] := by
    have g : StatMap.get (Q := Bool) (soloAddr D) [⟨soloStat D, ⟨false, false⟩, .val () v⟩] ⟨false, false⟩ (soloStat D) =
      .ok (some v) := rfl
    simp only [StatMap.modify, g, Res.bind_ok]
    rw [show o.writeTo (D := D) v = .ok w from h2]
    rfl
  exact ⟨by simp [StatMap.run, StatMap.runFrom, StatMap.step, StatMap.new, a1],
    by simp [StatMap.run, StatMap.runFrom, StatMap.step, StatMap.new, a1, a2]⟩

/-- **C129** Finite operations are not enough.  A map that two bonuses of `f32::MAX` were added to evaluates the stat to
`f32::MAX`, within its bounds.  It is saved as JSON without an error, and cannot be loaded again; a map with one of the
bonuses can. -/
theorem C129_overflow :
    let D := statFloat (Fl.ops .f32)
    let one : List (MapOp (solo D) Bool) := [.modify ⟨false, false⟩ (soloStat D) (.add f32Max)]
    let reg : Registry (solo D) := fun n => if n = "0" then some (soloStat D) else none
    (∃ q, f32Max = .fin q) ∧
    (∃ m v d, StatMap.run (soloAddr D) (one ++ one) = .ok m ∧
      StatMap.get (soloAddr D) m ⟨false, false⟩ (soloStat D) = .ok (some v) ∧ D.eval v = .ok f32Max ∧
      floatSerde.serMap m = .ok d ∧ floatSerde.deMap (.registry reg) d.json = .ok none ∧
      floatSerde.deMap (.registry reg) d = .ok (some m)) ∧
    (∃ m d, StatMap.run (soloAddr D) one = .ok m ∧ m.length = 1 ∧
      floatSerde.serMap m = .ok d ∧ floatSerde.deMap (.registry reg) d.json = .ok (some m)) := by
  have e1 : Fl.add .f32 (.fin 0) f32Max = f32Max := by decide +kernel
  have e2 : Fl.add .f32 f32Max f32Max = .pinf := by decide +kernel
  have e3 : (statFloat (Fl.ops .f32)).eval { (statFloat (Fl.ops .f32)).default with addend := .pinf } = .ok f32Max := by
    decide +kernel
  intro D one reg
  obtain ⟨r1, r2⟩ := solo_modify_twice (D := D) (.add f32Max) { D.default with addend := f32Max }
    { D.default with addend := .pinf }
    (show Except.ok ({ D.default with addend := Fl.add .f32 (.fin 0) f32Max } : StatFloat Fl) = _ by rw [e1])
    (show Except.ok ({ D.default with addend := Fl.add .f32 f32Max f32Max } : StatFloat Fl) = _ by rw [e2])
  have hv : ∀ u, (⟨floatSerde.ser u, floatSerde.de u⟩ : Codec _).ThroughJson _ _ := fun _ =>
    Codec.C129_statFloat ⟨true, true⟩ (Codec.C129_float Fmt.normal_f32)
  have hmax : Fmt.f32.Rep Fmt.f32.maxVal := by
    refine ⟨2 ^ 24 - 1, 104, ?_, by decide, by decide, ?_⟩ <;>
    norm_num [Fmt.maxVal, Fmt.f32, abs_of_pos]
  have hmin : Fmt.f32.Rep (-Fmt.f32.maxVal) := by
    refine ⟨-(2 ^ 24 - 1), 104, ?_, by decide, by decide, ?_⟩ <;>
    norm_num [Fmt.maxVal, Fmt.f32, abs_of_pos]
  have hreg : ∃ n, (soloStat D).name = .ok n ∧ reg n = some (soloStat D) := ⟨toString 0, rfl, by decide⟩
  have hq : floatSerde.deQ (floatSerde.serQ ⟨false, false⟩).json = some ⟨false, false⟩ :=
    (Codec.C129_qualifier ⟨true, true⟩ Codec.C129_bool).kept ⟨false, false⟩ ⟨trivial, trivial⟩ ⟨trivial, trivial⟩
  have hq' : floatSerde.deQ (floatSerde.serQ ⟨false, false⟩) = some ⟨false, false⟩ :=
    (Codec.C65_qualifier ⟨true, true⟩ Codec.C65_bool).roundtrip ⟨false, false⟩ ⟨trivial, trivial⟩
  refine ⟨⟨_, rfl⟩, ?_, ?_⟩
  · obtain ⟨d, d1, -, d2⟩ := C129_map (soloAddr D) floatSerde _ _ (one ++ one) _ r2 reg
      (by rintro e (_ | ⟨_, ⟨⟩⟩); exact hq) hv
      (by rintro e (_ | ⟨_, ⟨⟩⟩) x hx; cases hx; exact ⟨trivial, hmin, hmax, Fl.rep_one Fmt.normal_f32⟩)
      (fun _ _ => rfl) (by rintro e (_ | ⟨_, ⟨⟩⟩); exact hreg)
    obtain ⟨d', d1', d3⟩ := C13_roundtrip_of_stored (soloAddr D) floatSerde (one ++ one) _ r2 reg
      (by rintro e (_ | ⟨_, ⟨⟩⟩); exact hq')
      (by
        rintro e (_ | ⟨_, ⟨⟩⟩) x hx; cases hx
        exact (Codec.C65_statFloat ⟨true, true⟩ (Codec.C65_float Fmt.normal_f32)).roundtrip _
          ⟨trivial, hmin, hmax, Fl.rep_one Fmt.normal_f32⟩)
      (fun _ _ => rfl) (by rintro e (_ | ⟨_, ⟨⟩⟩); exact hreg)
    rw [d1] at d1'
    cases d1'
    refine ⟨_, _, d, r2, rfl, e3, d1, d2 ⟨_, List.mem_singleton.2 rfl, _, rfl, ?_⟩, d3⟩
    rintro ⟨⟨q, h⟩, _⟩
    cases h
  · obtain ⟨d, d1, d2, -⟩ := C129_map (soloAddr D) floatSerde _ _ one _ r1 reg
      (by rintro e (_ | ⟨_, ⟨⟩⟩); exact hq) hv
      (by rintro e (_ | ⟨_, ⟨⟩⟩) x hx; cases hx; exact ⟨hmax, hmin, hmax, Fl.rep_one Fmt.normal_f32⟩)
      (fun _ _ => rfl) (by rintro e (_ | ⟨_, ⟨⟩⟩); exact hreg)
    refine ⟨_, d, r1, rfl, d1, d2 ?_⟩
    rintro e (_ | ⟨_, ⟨⟩⟩) x hx
    cases hx
    exact ⟨⟨_, rfl⟩, ⟨_, rfl⟩, ⟨_, rfl⟩, ⟨_, rfl⟩⟩

end
end BSQ
