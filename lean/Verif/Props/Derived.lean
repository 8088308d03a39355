import Verif.Spec.Derived
import Verif.Props.Derive
import Verif.Props.SaveLoad
/-!
# C134: programs whose stat types are derived
-/
namespace BSQ
open Derive Deserializers
variable {E : Env} (A : Addr E)

/-- a program's stat types are registered without panic, if and only if no two of their values have the same name, and
no name is taken -/
theorem Resources.registerStats_ok_iff {Q Ent G : Type} (Ts : List E.S) (w : Resources E Q Ent G) :
    (∃ w', w.registerStats A Ts = .ok w') ↔
      (∀ T ∈ Ts, ∀ x ∈ E.values T, ∀ s, Deserializers.get (w.deserializers.getD []) (E.statName x) = some s →
        s = E.asEntry x) ∧
      (∀ T ∈ Ts, ∀ T' ∈ Ts, ∀ x ∈ E.values T, ∀ y ∈ E.values T', E.statName x = E.statName y →
        E.asEntry x = E.asEntry y) := by
  constructor
  · rintro ⟨w', h⟩
    obtain ⟨h1, h2, -⟩ := Resources.registerStats_spec A Ts w w' h
    refine ⟨fun T hT x hx s hs => ?_, fun T hT T' hT' x hx y hy hn => ?_⟩
    · exact Option.some.inj ((h1 _ _ hs).symm.trans (h2 T hT x hx))
    · have := h2 T hT x hx
      rw [hn, h2 T' hT' y hy] at this
      exact (Option.some.inj this).symm
  · rintro ⟨h1, h2⟩
    induction Ts generalizing w with
    | nil => exact ⟨w, rfl⟩
    | cons T Ts ih =>
      obtain ⟨r, hr⟩ := (C41_register_ok_iff A T (w.deserializers.getD [])).1.2
        ⟨h1 T (by simp), h2 T (by simp) T (by simp)⟩
      obtain ⟨c1, -, c3⟩ := C41_register_finds A T _ r hr
      obtain ⟨w', hw'⟩ := ih { w with deserializers := some r }
        (fun U hU x hx s hs => by
          simp only [Option.getD_some] at hs
          by_cases hex : ∃ y ∈ E.values T, E.statName y = E.statName x
          · obtain ⟨y, hy, hn⟩ := hex
            rw [← hn, c1 y hy] at hs
            exact (Option.some.inj hs).symm.trans (h2 T (by simp) U (by simp [hU]) y hy x hx hn)
          · rw [c3 _ fun y hy hn => hex ⟨y, hy, hn⟩] at hs
            exact h1 U (by simp [hU]) x hx s hs)
        (fun U hU U' hU' => h2 U (by simp [hU]) U' (by simp [hU']))
      refine ⟨w', ?_⟩
      simp only [Resources.registerStats, Resources.registerStat, hr, Res.bind_ok]
      exact hw'

theorem Resources.registerStats_panics {Q Ent G : Type} (Ts : List E.S) (w : Resources E Q Ent G) (e : Err)
    (h : w.registerStats A Ts = .error e) : e = .panic := by
  induction Ts generalizing w with
  | nil => cases h
  | cons T Ts ih =>
    simp only [Resources.registerStats, Resources.registerStat] at h
    cases hr : Deserializers.register A T (w.deserializers.getD []) with
    | error e' =>
      rw [hr] at h
      cases h
      exact (C41_register_ok_iff A T _).2 _ hr
    | ok r =>
      rw [hr] at h
      exact ih _ h

namespace Derived
variable (D : Derived E)

theorem impl_idents (T : E.S) : (D.impl T).idents = (D.item T).idents ∧
    (D.impl T).indices.length = (D.item T).idents.length ∧ (D.item T).idents.Nodup := by
  have hm := D.made T
  have hk := D.ok T
  cases hi : D.item T with
  | unitStruct i =>
    rw [hi] at hm
    have : D.impl T = Derive.unitStruct i := (Option.some.inj hm).symm
    rw [this]
    simp [Derive.unitStruct, StatItem.idents]
  | enum vs =>
    rw [hi] at hm hk
    obtain ⟨is, -, hl, he⟩ := enum_some hk
    have : D.impl T = _ := (Option.some.inj (he.symm.trans hm)).symm
    rw [this]
    refine ⟨rfl, ?_, hk.idents⟩
    simp [StatItem.idents, hl]

theorem name_getElem {T : E.S} (x : E.Sel T) : (D.item T).idents[D.pos x]? = some (E.statName x) := by
  have := D.name x
  unfold Impl.name at this
  rwa [(D.impl_idents T).1] at this

include D in
theorem mem_values {T : E.S} (x : E.Sel T) : x ∈ E.values T := by
  have h : D.pos x ∈ (E.values T).map D.pos := by
    rw [D.values T, Impl.values, List.mem_range, (D.impl_idents T).1]
    exact (D.pos_iff T _).1 ⟨x, rfl⟩
  obtain ⟨y, hy, he⟩ := List.mem_map.1 h
  rwa [D.pos_inj y x he] at hy

theorem mem_idents {T : E.S} {n : String} : n ∈ (D.item T).idents ↔ ∃ x : E.Sel T, E.statName x = n := by
  constructor
  · intro h
    obtain ⟨i, hi, rfl⟩ := List.getElem_of_mem h
    obtain ⟨x, hx⟩ := (D.pos_iff T i).2 hi
    refine ⟨x, ?_⟩
    have := D.name_getElem x
    rw [hx, List.getElem?_eq_getElem hi] at this
    exact (Option.some.inj this).symm
  · rintro ⟨x, rfl⟩
    exact List.mem_of_getElem? (D.name_getElem x)

include D in
theorem name_inj {T : E.S} {x y : E.Sel T} (h : E.statName x = E.statName y) : x = y := by
  have hx := D.name_getElem x
  have hy := D.name_getElem y
  rw [← h] at hy
  exact D.pos_inj _ _ ((List.getElem?_inj (List.getElem?_eq_some_iff.1 hx).1 (D.impl_idents T).2.2).1
    (hx.trans hy.symm))

end Derived
variable (D : Derived E)

/-- **C134** Registering derived stat types returns if and only if no two of the types have a variant (or struct) of
the same identifier; else it panics.  The names of the types do not matter. -/
theorem C134_register_iff {Q Ent G : Type} (Ts : List E.S) (w : Resources E Q Ent G)
    (hw : w.deserializers = none) :
    ((∃ w', w.registerStats A Ts = .ok w') ↔
      ∀ T ∈ Ts, ∀ T' ∈ Ts, T ≠ T' → ∀ n ∈ (D.item T).idents, n ∉ (D.item T').idents) ∧
    ∀ e, w.registerStats A Ts = .error e → e = .panic := by
  refine ⟨?_, fun e => Resources.registerStats_panics A Ts w e⟩
  rw [Resources.registerStats_ok_iff]
  constructor
  · rintro ⟨-, h⟩ T hT T' hT' hne n hn hn'
    obtain ⟨x, rfl⟩ := D.mem_idents.1 hn
    obtain ⟨y, hy⟩ := D.mem_idents.1 hn'
    have := h T hT T' hT' x (D.mem_values x) y (D.mem_values y) hy.symm
    exact hne (congrArg StatInst.vt this)
  · intro h
    refine ⟨fun T _ x _ s hs => ?_, fun T hT T' hT' x hx y hy hn => ?_⟩
    · rw [hw] at hs
      cases hs
    · by_cases hne : T = T'
      · subst hne
        rw [D.name_inj hn]
      · exact absurd (D.mem_idents.2 ⟨y, hn.symm⟩) (h T hT T' hT' hne _ (D.mem_idents.2 ⟨x, rfl⟩))

include D in
/-- **C134** Every stat that a value of a derived type stands for can be saved by name and loaded: its index leads back
to a value with that index. -/
theorem C134_listed {T : E.S} (x : E.Sel T) : Listed (E.asEntry x) := by
  have hx := D.asIndex x
  have hf := D.fromIndex T (E.asIndex x)
  unfold Impl.asIndex at hx
  obtain ⟨hlt, hv⟩ := List.getElem?_eq_some_iff.1 hx
  unfold Impl.fromIndex at hf
  cases hi : (D.impl T).indices.findIdx? (· == E.asIndex x) with
  | none =>
    rw [List.findIdx?_eq_none_iff] at hi
    have := hi _ (List.getElem_mem hlt)
    simp [hv] at this
  | some i =>
    rw [hi] at hf
    cases hg : E.fromIndex T (E.asIndex x) with
    | error e => rw [hg] at hf; cases hf
    | ok y =>
      rw [hg] at hf
      have hp : D.pos y = i := Except.ok.inj hf
      suffices he : E.asIndex y = E.asIndex x from ⟨y, D.mem_values y, he, hg⟩
      obtain ⟨hi1, hi2, -⟩ := List.findIdx?_eq_some_iff_getElem.1 hi
      have hy := D.asIndex y
      unfold Impl.asIndex at hy
      rw [hp, List.getElem?_eq_getElem hi1] at hy
      rw [← Option.some.inj hy]
      simpa using hi2

/-- **C134** The values of a derived type are different stats, if and only if there is no variant without discriminant
at the front, or no later variant has the number of such front variants as its discriminant. -/
theorem C134_distinct_iff (T : E.S) :
    (∀ x y : E.Sel T, E.asEntry x = E.asEntry y → x = y) ↔
      match D.item T with
      | .unitStruct _ => True
      | .enum vs => leading vs = 0 ∨ leading vs ∉ rustDiscsFrom 0 vs := by
  have key : (∀ x y : E.Sel T, E.asEntry x = E.asEntry y → x = y) ↔ (D.impl T).indices.Nodup := by
    rw [List.nodup_iff_getElem?_ne_getElem?]
    constructor
    · intro h i j hij hj he
      rw [(D.impl_idents T).2.1] at hj
      obtain ⟨x, rfl⟩ := (D.pos_iff T i).2 (by omega)
      obtain ⟨y, rfl⟩ := (D.pos_iff T j).2 hj
      have hx := D.asIndex x
      have hy := D.asIndex y
      unfold Impl.asIndex at hx hy
      rw [hx, hy] at he
      have := h x y (by unfold Env.asEntry; rw [Option.some.inj he])
      subst this
      omega
    · intro h x y he
      have he : E.asIndex x = E.asIndex y := congrArg StatInst.index he
      have hx := D.asIndex x
      have hy := D.asIndex y
      unfold Impl.asIndex at hx hy
      rcases Nat.lt_trichotomy (D.pos x) (D.pos y) with hlt | heq | hlt
      · exact absurd (hx.trans ((congrArg some he).trans hy.symm))
          (h _ _ hlt (List.getElem?_eq_some_iff.1 hy).1)
      · exact D.pos_inj x y heq
      · exact absurd (hy.trans ((congrArg some he.symm).trans hx.symm))
          (h _ _ hlt (List.getElem?_eq_some_iff.1 hx).1)
  rw [key]
  have hm := D.made T
  have hk := D.ok T
  cases hi : D.item T with
  | unitStruct i =>
    rw [hi] at hm
    rw [← Option.some.inj hm]
    simp [Derive.unitStruct]
  | enum vs =>
    rw [hi] at hm hk
    exact C39_distinct_iff vs hk _ hm

include D in
/-- **C134** The name of the stat of a value is that of the first value with the same index: its own, if the values of
its type are different stats. -/
theorem C134_name {T : E.S} (x : E.Sel T) :
    (∃ y : E.Sel T, E.asEntry y = E.asEntry x ∧ (E.asEntry x).name = .ok (E.statName y)) ∧
    ((∀ x y : E.Sel T, E.asEntry x = E.asEntry y → x = y) → (E.asEntry x).name = .ok (E.statName x)) := by
  obtain ⟨y, -, h1, h2⟩ := C134_listed D x
  have hn : (E.asEntry x).name = .ok (E.statName y) := by
    unfold StatInst.name
    rw [h2]; rfl
  have he : E.asEntry y = E.asEntry x := by
    show (⟨T, E.asIndex y⟩ : StatInst E) = _
    rw [h1]
    rfl
  refine ⟨⟨y, he, hn⟩, fun h => ?_⟩
  rw [hn]
  exact congrArg (fun z => Except.ok (E.statName z)) (h y x he)

/-- **C134** From the source text to the loaded map: if no two stat types of a program have a variant of the same
identifier, then registering them returns, and every map of their stats is loaded as it was saved. -/
theorem C134_save_load {Q Ent G : Type} [DecidableEq Q] [Ord Q] [Std.TransOrd Q] [Std.LawfulEqOrd Q]
    [DecidableEq Ent] (Ts : List E.S) (w : Resources E Q Ent G) (hw : w.deserializers = none)
    (hdis : ∀ T ∈ Ts, ∀ T' ∈ Ts, T ≠ T' → ∀ n ∈ (D.item T).idents, n ∉ (D.item T').idents)
    (X : Serde E Q) (hX : X.Lawful) (hsup : ∀ T ∈ Ts, X.supported T = true) :
    ∃ w', w.registerStats A Ts = .ok w' ∧
      ∀ (h : List (MapOp E Q)) (m : StatMap E Q), StatMap.run A h = .ok m →
        (∀ e ∈ m, e.stat.vt ∈ Ts ∧ ∃ x : E.Sel e.stat.vt, e.stat = E.asEntry x) →
        ∃ d, X.serMap m = .ok d ∧ X.deMap w'.scope d = .ok (some m) := by
  obtain ⟨w', hw'⟩ := (C134_register_iff A D Ts w hw).1.2 hdis
  refine ⟨w', hw', fun h m hm hst => ?_⟩
  by_cases hne : m = []
  · subst hne
    exact C66_empty X w'.scope
  · refine C66_save_load A X h m hm Ts w w' hw' (fun e he => ⟨(hst e he).1, ?_⟩) (fun e _ => hX.qual e.qual)
      (fun _ _ x _ => hX.val _ x) (fun e he => hsup _ (hst e he).1) hne
    obtain ⟨x, hx⟩ := (hst e he).2
    rw [hx]
    exact C134_listed D x

/-! ### concrete cases -/

/-- `enum Offence { Damage, Speed }` with integer values and `enum Defence { Armour, <name> = 1 }` with flags -/
def demoStatItem (name : String) : Bool → StatItem
  | true => .enum [{ ident := "Damage" }, { ident := "Speed" }]
  | false => .enum [{ ident := "Armour" }, { ident := name, disc := .lit 1 }]

abbrev demoDerivedEnv (name : String) : Env :=
  { demo with
    Sel := fun _ => Fin 2
    asIndex := fun {s} x => match s with
      | true => x.val + 1
      | false => 1
    fromIndex := fun s n => match s with
      | true => if n = 1 then .ok 0 else if n = 2 then .ok 1 else .error .panic
      | false => if n = 1 then .ok 0 else .error .panic
    statName := fun {s} x => match s, x with
      | true, 0 => "Damage"
      | true, 1 => "Speed"
      | false, 0 => "Armour"
      | false, 1 => name
    values := fun _ => [0, 1] }

def demoDerived (name : String) (h : name ≠ "Armour") : Derived (demoDerivedEnv name) where
  item := demoStatItem name
  impl T := match T with
    | true => ⟨["Damage", "Speed"], [1, 2], none⟩
    | false => ⟨["Armour", name], [1, 1], none⟩
  ok T := by
    cases T
    · exact ⟨by simp, by simp, by simp [rustDiscsFrom], by simp [rustDiscsFrom], by simpa using h.symm⟩
    · exact ⟨by simp, by simp, by simp [rustDiscsFrom], by simp [rustDiscsFrom], by simp⟩
  made T := by cases T <;> rfl
  pos x := x.val
  pos_inj x y h := Fin.ext h
  pos_iff T i := by
    cases T
    · exact ⟨fun ⟨x, hx⟩ => hx ▸ x.isLt, fun h => ⟨⟨i, h⟩, rfl⟩⟩
    · exact ⟨fun ⟨x, hx⟩ => hx ▸ x.isLt, fun h => ⟨⟨i, h⟩, rfl⟩⟩
  name {T} x := by cases T <;> (obtain ⟨i, hi⟩ := x; obtain _ | _ | i := i) <;> first | rfl | omega
  asIndex {T} x := by cases T <;> (obtain ⟨i, hi⟩ := x; obtain _ | _ | i := i) <;> first | rfl | omega
  fromIndex T n := by
    cases T
    · obtain _ | _ | n := n <;> rfl
    · obtain _ | _ | _ | n := n <;> rfl
  values T := by cases T <;> rfl

def demoDerivedAddr (name : String) : Addr (demoDerivedEnv name) := ⟨demoAddr.at_, demoAddr.inj⟩

/-- **C134** Two enums with a variant of the same name cannot both be registered. -/
theorem C134_clash : let w : Resources (demoDerivedEnv "Damage") (BitVec 8) Nat Unit := ⟨none, none, none, none⟩
    (∃ w', w.registerStats (demoDerivedAddr _) [true] = .ok w') ∧
    (∃ w', w.registerStats (demoDerivedAddr _) [false] = .ok w') ∧
    w.registerStats (demoDerivedAddr _) [true, false] = .error .panic :=
  ⟨⟨_, rfl⟩, ⟨_, rfl⟩, rfl⟩

/-- C134: with different names they can; the two values of the second are one stat, and its name that of the first -/
example : let w : Resources (demoDerivedEnv "Shield") (BitVec 8) Nat Unit := ⟨none, none, none, none⟩
    (∃ w', w.registerStats (demoDerivedAddr _) [true, false] = .ok w') ∧
    (demoDerivedEnv "Shield").asEntry (s := false) 0 = (demoDerivedEnv "Shield").asEntry (s := false) 1 ∧
    ((demoDerivedEnv "Shield").asEntry (s := false) 1).name = .ok "Armour" ∧
    ∀ x y : Fin 2, (demoDerivedEnv "Shield").asEntry (s := true) x = (demoDerivedEnv "Shield").asEntry (s := true) y →
      x = y := by
  refine ⟨(C134_register_iff (demoDerivedAddr _) (demoDerived "Shield" (by decide)) [true, false] _ rfl).1.2 ?_,
    rfl, rfl, (C134_distinct_iff (demoDerived "Shield" (by decide)) true).2 ?_⟩
  · intro T _ T' _ hne n hn
    cases T <;> cases T' <;> simp_all [demoDerived, demoStatItem, StatItem.idents] <;> rcases hn with rfl | rfl <;> decide
  · exact .inr (by decide)

/-- C134: and maps of their stats are loaded as they were saved, whichever values the stats were taken from -/
example : ∃ X : Serde (demoDerivedEnv "Shield") (BitVec 8), X.Lawful ∧ ∃ w' m,
    (⟨none, none, none, none⟩ : Resources (demoDerivedEnv "Shield") (BitVec 8) Nat Unit).registerStats
      (demoDerivedAddr _) [true, false] = .ok w' ∧
    StatMap.run (demoDerivedAddr "Shield")
      [.insert ⟨0, 0⟩ ((demoDerivedEnv "Shield").asEntry (s := true) 1) (⟨6, 0, 9, 1⟩ : StatInt),
       .insert ⟨0, 0⟩ ((demoDerivedEnv "Shield").asEntry (s := false) 1) (⟨0, 5⟩ : StatFlags (BitVec 8))] = .ok m ∧
    m.length = 2 ∧ ∃ d, X.serMap m = .ok d ∧ X.deMap w'.scope d = .ok (some m) := by
  have hX : (⟨demoSerde.serQ, demoSerde.deQ, demoSerde.ser, demoSerde.de, demoSerde.supported, demoSerde.fmt⟩ :
    Serde (demoDerivedEnv "Shield") (BitVec 8)).Lawful := ⟨demoSerde_lawful.qual, demoSerde_lawful.val⟩
  obtain ⟨w', hw', h⟩ := C134_save_load (Q := BitVec 8) (Ent := Nat) (G := Unit) (demoDerivedAddr _)
    (demoDerived "Shield" (by decide)) [true, false] ⟨none, none, none, none⟩ rfl (by
      intro T _ T' _ hne n hn
      cases T <;> cases T' <;> simp_all [demoDerived, demoStatItem, StatItem.idents] <;> rcases hn with rfl | rfl <;> decide)
    _ hX (fun _ _ => rfl)
  have hm : ∃ m, StatMap.run (Q := BitVec 8) (demoDerivedAddr "Shield")
      [.insert (⟨0, 0⟩ : Qualifier (BitVec 8)) ((demoDerivedEnv "Shield").asEntry (s := true) 1)
        (⟨6, 0, 9, 1⟩ : StatInt),
       .insert ⟨0, 0⟩ ((demoDerivedEnv "Shield").asEntry (s := false) 1)
        (⟨0, 5⟩ : StatFlags (BitVec 8))] = .ok m :=
    ⟨_, rfl⟩
  obtain ⟨m, hm⟩ := hm
  refine ⟨_, hX, w', m, hw', hm, by cases hm; rfl, h _ m hm ?_⟩
  cases hm
  rintro e (_ | ⟨_, _ | ⟨_, h⟩⟩)
  · exact ⟨by decide, (1 : Fin 2), rfl⟩
  · exact ⟨by decide, (1 : Fin 2), rfl⟩
  · cases h

end BSQ
