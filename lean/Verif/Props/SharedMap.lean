import Verif.Proofs.SharedMap
import Verif.Props.StatMap
/-! # C126: what a `StatMap` is when vtables may share an address -/
set_option linter.unusedSectionVars false
namespace BSQ
open Shared
variable {E : Env} {Q : Type} [DecidableEq Q] [Ord Q] [Std.TransOrd Q] [Std.LawfulEqOrd Q] {loc : E.S → Nat}

/-- With the different addresses of an `Addr` the definitions are those of the rest of the model, and the map of
spots is the plain map. -/
theorem C126_addr (A : Addr E) :
    (∀ h : List (MapOp E Q), Shared.run A.at_ h = StatMap.run A h) ∧
    (∀ (m : StatMap E Q) q s, Shared.get A.at_ m q s = StatMap.get A m q s) ∧
    (∀ (m : StatMap E Q) q s, Shared.remove A.at_ m q s = StatMap.remove A m q s) ∧
    (∀ (m : StatMap E Q) s, Shared.iter A.at_ m s = StatMap.iter A m s) ∧
    (∀ [QualifierFlag Q] (m : StatMap E Q) query s, Shared.queryStat A.at_ m query s = StatMap.queryStat A m query s) ∧
    (∀ a b : Key E Q, SameSpot A.at_ a b ↔ a = b) := by
  have hput : ∀ (m : StatMap E Q) q s b, Shared.put A.at_ m q s b = (Vec.put A m q s b).1 := by
    intro m q s b
    have : Shared.search A.at_ m q s = Vec.search A m q s := rfl
    unfold Shared.put Vec.put
    rw [this]
    cases Vec.search A m q s <;> rfl
  have hstep : ∀ (m : StatMap E Q) (o : MapOp E Q), Shared.step A.at_ m o = StatMap.step A m o := by
    intro m o
    cases o with
    | insert q s v => simp only [Shared.step, StatMap.step, Shared.insert, StatMap.insert, hput]
    | insertBase q s v => simp only [Shared.step, StatMap.step, Shared.insertBase, StatMap.insertBase, hput]
    | modify q s o => simp only [Shared.step, StatMap.step, Shared.modify, StatMap.modify, hput]; rfl
    | modifyWith q s f => simp only [Shared.step, StatMap.step, Shared.modifyWith, StatMap.modifyWith, hput]; rfl
    | getMut q s f => rfl
    | iterMut s f => rfl
    | remove q s => rfl
    | removeAll s => rfl
    | clear => rfl
  have hrun : ∀ (h : List (MapOp E Q)) (m : StatMap E Q), Shared.runFrom A.at_ m h = StatMap.runFrom A m h := by
    intro h
    induction h with
    | nil => intro m; rfl
    | cons o h ih =>
      intro m
      simp only [Shared.runFrom, StatMap.runFrom, hstep, ih]
  refine ⟨fun h => hrun h _, fun _ _ _ => rfl, fun _ _ _ => rfl, fun _ _ => rfl, fun _ _ _ => rfl, fun a b => ?_⟩
  obtain ⟨⟨a1, a2⟩, a3⟩ := a
  obtain ⟨⟨b1, b2⟩, b3⟩ := b
  constructor
  · rintro ⟨⟨h1, h2⟩, h3⟩
    have := A.inj h1
    simp only at this h2 h3
    subst this h2 h3
    rfl
  · intro h
    rw [h]
    exact ⟨⟨rfl, rfl⟩, rfl⟩

/-- **C126** If stat types with one address have one value type, then after every history of calls the map is the
map of spots: it panics where that panics, and otherwise gives and removes the values that holds. -/
theorem C126_map (hsep : Separates loc) (h : List (MapOp E Q)) :
    match Shared.run loc h, SpotMap.run loc h with
    | .ok m, .ok a =>
      (∀ q s, Shared.get loc m q s = .ok (a ⟨s, q⟩)) ∧
      (∀ q s, ∃ m', Shared.remove loc m q s = .ok (m', a ⟨s, q⟩) ∧
        Shared.run loc (h ++ [.remove q s]) = .ok m') ∧
      (∀ s, ∃ L : List (Qualifier Q × s.Val), Shared.iter loc m s = .ok L ∧
        (L.map (·.1)).Pairwise KeyBefore.QualBefore ∧ L.Nodup ∧ ∀ q v, (q, v) ∈ L ↔ a ⟨s, q⟩ = some v)
    | .error e, .error e' => e = e'
    | _, _ => False := by
  have key := SRep.run hsep h
  cases hm : Shared.run loc h with
  | error e =>
    cases ha : SpotMap.run loc h with
    | error e' => rw [hm, ha] at key; exact key
    | ok a => rw [hm, ha] at key; exact key.elim
  | ok m =>
    cases ha : SpotMap.run loc h with
    | error e' => rw [hm, ha] at key; exact key.elim
    | ok a =>
      rw [hm, ha] at key
      have r : SRep loc m a := key
      refine ⟨r.get, fun q s => ⟨_, (r.pull q s).1, ?_⟩, fun s => ?_⟩
      · have happ : ∀ (os : List (MapOp E Q)) (m₀ m₁ : StatMap E Q), Shared.runFrom loc m₀ os = .ok m₁ →
            Shared.runFrom loc m₀ (os ++ [.remove q s]) = Shared.step loc m₁ (.remove q s) := by
          intro os
          induction os with
          | nil =>
            intro m₀ m₁ h0
            cases h0
            simp only [List.nil_append, Shared.runFrom]
            cases Shared.step loc m₀ (.remove q s) <;> rfl
          | cons o os ih =>
            intro m₀ m₁ h0
            simp only [Shared.runFrom, List.cons_append] at h0 ⊢
            cases hs : Shared.step loc m₀ o with
            | error e => rw [hs] at h0; cases h0
            | ok m₂ => rw [hs] at h0; exact ih m₂ m₁ h0
        unfold Shared.run at hm ⊢
        rw [happ h _ m hm]
        simp only [Shared.step, (r.pull q s).1, Res.bind_ok]
      · obtain ⟨L, hL, hp, hmem, hst⟩ := r.statList hsep s
        refine ⟨L, ?_, hp, ?_, hmem⟩
        · unfold Shared.iter
          rw [Shared.slice_eq r.sorted]
          simp only [Res.bind_ok]
          have : ∀ (L : List (Qualifier Q × s.Val)) (l : Vec E Q (Buf E)), (L ≠ [] → Storable (E.layout s.ty)) →
              l.map (fun e => (e.qual, e.buf)) = L.map (fun p => (p.1, .val s.ty p.2)) →
              l.mapM (fun e => (do
                let v ← e.buf.read s.ty
                .ok (e.qual, v) : Res _)) = .ok L := by
            intro L
            induction L with
            | nil =>
              intro l _ hl
              have : l = [] := by simpa using hl
              rw [this]; rfl
            | cons p L ih =>
              intro l hst hl
              cases l with
              | nil => cases hl
              | cons e l =>
                simp only [List.map_cons, List.cons.injEq, Prod.mk.injEq] at hl
                rw [List.mapM_cons, ih l (fun _ => hst (by simp)) hl.2, hl.1.1, hl.1.2, Buf.read_val (hst (by simp))]
                rfl
          exact this L _ hst hL
        · refine List.Nodup.of_map (fun p : Qualifier Q × s.Val => p.1) (hp.imp ?_)
          rintro x _ hxy rfl
          rcases hxy with h | ⟨_, h⟩
          · exact absurd h (by simp)
          · exact absurd h (by simp)

/-- With separated value types no history ends in undefined behaviour, and no read, removal, iteration of a map reached
by one does. -/
theorem C126_safe (hE : E.NoUb) (hsep : Separates loc) (h : List (MapOp E Q)) (hh : ∀ o ∈ h, o.NoUb) :
    Shared.run loc h ≠ .error .ub ∧
    ∀ m, Shared.run loc h = .ok m → ∀ q s, Shared.get loc m q s ≠ .error .ub ∧ Shared.remove loc m q s ≠ .error .ub ∧
      Shared.iter loc m s ≠ .error .ub := by
  have key := C126_map hsep h
  constructor
  · intro hu
    rw [hu] at key
    have hstep : ∀ (a : PMap E Q) (o : MapOp E Q), o.NoUb → SpotMap.step loc a o ≠ .error .ub := by
      intro a o ho
      have hst : ∀ (k : Key E Q) (v : k.Val), SpotMap.store loc a k v ≠ .error .ub := by
        intro k v hk
        unfold SpotMap.store at hk
        split at hk <;> cases hk
      cases o with
      | insert q s v => exact hst ⟨s, q⟩ v
      | insertBase q s b => exact hst ⟨s, q⟩ _
      | modify q s o =>
        simp only [SpotMap.step]
        cases a ⟨s, q⟩ with
        | none =>
          dsimp only
          cases hw : o.writeTo s.sv.default with
          | error e => intro he; cases he; exact hE.write s.ty o _ hw
          | ok v => exact hst ⟨s, q⟩ v
        | some v =>
          dsimp only
          cases hw : o.writeTo v with
          | error e => intro he; cases he; exact hE.write s.ty o _ hw
          | ok v' => intro he; cases he
      | modifyWith q s f =>
        simp only [SpotMap.step]
        cases a ⟨s, q⟩ with
        | none =>
          dsimp only
          cases hw : f s.sv.default with
          | error e => intro he; cases he; exact ho _ hw
          | ok v => exact hst ⟨s, q⟩ v
        | some v =>
          dsimp only
          cases hw : f v with
          | error e => intro he; cases he; exact ho _ hw
          | ok v' => intro he; cases he
      | getMut q s f =>
        simp only [SpotMap.step]
        cases a ⟨s, q⟩ with
        | none => intro he; cases he
        | some v =>
          dsimp only
          cases hw : f v with
          | error e => intro he; cases he; exact ho _ hw
          | ok v' => intro he; cases he
      | iterMut s f => intro he; cases he
      | remove q s => intro he; cases he
      | removeAll s => intro he; cases he
      | clear => intro he; cases he
    have hrun : ∀ (h : List (MapOp E Q)) (a : PMap E Q), (∀ o ∈ h, o.NoUb) → SpotMap.runFrom loc a h ≠ .error .ub := by
      intro h
      induction h with
      | nil => intro a _ he; cases he
      | cons o h ih =>
        intro a hh he
        simp only [SpotMap.runFrom] at he
        cases hs : SpotMap.step loc a o with
        | error e =>
          rw [hs] at he
          cases he
          exact hstep a o (hh o (by simp)) hs
        | ok a' =>
          rw [hs] at he
          exact ih a' (fun o ho => hh o (by simp [ho])) he
    cases ha : SpotMap.run loc h with
    | ok a => rw [ha] at key; exact key
    | error e =>
      rw [ha] at key
      have : Err.ub = e := key
      exact hrun h _ hh (by rw [this]; exact ha)
  · intro m hm q s
    rw [hm] at key
    cases ha : SpotMap.run loc h with
    | error e => rw [ha] at key; exact key.elim
    | ok a =>
      rw [ha] at key
      obtain ⟨h1, h2, h3⟩ := key
      refine ⟨?_, ?_, ?_⟩
      · rw [h1]; intro he; cases he
      · obtain ⟨m', h4, _⟩ := h2 q s
        rw [h4]; intro he; cases he
      · obtain ⟨L, h4, _⟩ := h3 s
        rw [h4]; intro he; cases he

/-- a value inserted under one stat and read under another at the same address -/
theorem get_inserted {S T : E.S} (hloc : loc S = loc T) (hS : Storable (E.layout (E.valTy S)))
    (i : Nat) (q : Qualifier Q) (v : E.El (E.valTy S)) :
    ∃ m, Shared.run loc [.insert q ⟨S, i⟩ v] = .ok m ∧
      Shared.get loc m q ⟨T, i⟩ = StatMap.readAs ⟨T, i⟩ (some (.val (E.valTy S) v)) := by
  refine ⟨[⟨⟨S, i⟩, q, .val (E.valTy S) v⟩], ?_, ?_⟩
  · change (Shared.insert loc [] q ⟨S, i⟩ v >>= fun m' => .ok m') = _
    unfold Shared.insert
    rw [Buf.from_eq, if_pos hS]
    rfl
  · unfold Shared.get
    congr 1
    unfold Shared.find Shared.search
    have : keyCmp loc (⟨⟨S, i⟩, q, .val (E.valTy S) v⟩ : Entry E Q (Buf E)) ⟨T, i⟩ q = .eq := by
      unfold keyCmp StatInst.cmpAt
      simp only [hloc]
      simp [Qualifier.cmp]
    simp [binarySearchBy, bsLoop, this]

/-- **C126** Exactly then is `StatMap` sound: no program, whatever it calls, reaches undefined behaviour through the
map if and only if the stat types with one address have one value type. -/
theorem C126_iff [Nonempty Q] (hE : E.NoUb) (hval : ∀ T, Storable (E.layout (E.valTy T))) :
    Separates loc ↔ ∀ h : List (MapOp E Q), (∀ o ∈ h, o.NoUb) → Shared.run loc h ≠ .error .ub ∧
      ∀ m, Shared.run loc h = .ok m → ∀ q s, Shared.get loc m q s ≠ .error .ub := by
  constructor
  · intro hsep h hh
    obtain ⟨h1, h2⟩ := C126_safe hE hsep h hh
    exact ⟨h1, fun m hm q s => (h2 m hm q s).1⟩
  · intro hno S T hloc
    by_contra hne
    obtain ⟨x⟩ := ‹Nonempty Q›
    obtain ⟨m, hm, hg⟩ := get_inserted (Q := Q) hloc (hval S) 0 ⟨x, x⟩ (E.sv (E.valTy S)).default
    refine (hno _ (fun o ho => ?_)).2 m hm ⟨x, x⟩ ⟨T, 0⟩ ?_
    · rw [List.mem_singleton.1 ho]; trivial
    · rw [hg]
      simp only [StatMap.readAs, Buf.read, validate_eq, if_pos (hval T), Res.bind_ok]
      simp [Buf.get, hne]

/-- Separation is not enough for the answers to be right: the map is the plain map, in which different stats are
different keys, if and only if no two stat types share an address. -/
theorem C126_exact [Nonempty Q] (hval : ∀ T, Storable (E.layout (E.valTy T))) :
    Function.Injective loc ↔ ∀ (h : List (MapOp E Q)) (m : StatMap E Q) (a : PMap E Q),
      Shared.run loc h = .ok m → PMap.run h = .ok a → ∀ q s, Shared.get loc m q s = .ok (a ⟨s, q⟩) := by
  constructor
  · intro hinj h m a hm ha q s
    let A : Addr E := ⟨loc, fun h => hinj h⟩
    obtain ⟨h1, h2, _⟩ := C126_addr (Q := Q) A
    have hm' : StatMap.run A h = .ok m := by rw [← h1]; exact hm
    have key := C06_behaves_as_map (A := A) h
    rw [hm', ha] at key
    exact (h2 m q s).trans (key.1 q s)
  · intro hall S T hloc
    by_contra hne
    obtain ⟨x⟩ := ‹Nonempty Q›
    obtain ⟨m, hm, hg⟩ := get_inserted (Q := Q) hloc (hval S) 0 ⟨x, x⟩ (E.sv (E.valTy S)).default
    have ha : PMap.run [MapOp.insert (⟨x, x⟩ : Qualifier Q) ⟨S, 0⟩ (E.sv (E.valTy S)).default] =
        .ok (PMap.empty.set ⟨⟨S, 0⟩, ⟨x, x⟩⟩ (E.sv (E.valTy S)).default) := by
      simp [PMap.run, PMap.runFrom, PMap.step, PMap.store, hval S]
    have := hall _ m _ hm ha ⟨x, x⟩ ⟨T, 0⟩
    rw [hg] at this
    have hne' : ¬ (T = S) := fun h => hne h.symm
    simp only [StatMap.readAs, Buf.read, validate_eq, if_pos (hval T), Res.bind_ok] at this
    cases hb : (Buf.val (E.valTy S) (E.sv (E.valTy S)).default : Buf E).get (StatInst.ty ⟨T, 0⟩) with
    | error e => rw [hb] at this; cases this
    | ok v =>
      rw [hb] at this
      simp [PMap.set, PMap.empty, hne'] at this

section query
variable {Q : Type} [BitFlags Q] [FlagSet Q] [Ord Q] [Std.TransOrd Q] [Std.LawfulEqOrd Q]
open FlagSpec

/-- **C126** A query of a map joins the matching values of the stat and of all stats that cannot be told apart from
it, each once. -/
theorem C126_query (hsep : Separates loc) (h : List (MapOp E Q)) (m : StatMap E Q) (hm : Shared.run loc h = .ok m)
    (query : QualifierQuery Q) (s : StatInst E) (hs : Storable (E.layout s.ty)) :
    ∃ (a : PMap E Q) (L : List (Qualifier Q × s.Val)), SpotMap.run loc h = .ok a ∧
      (L.map (·.1)).Pairwise KeyBefore.QualBefore ∧ L.Nodup ∧
      (∀ q v, (q, v) ∈ L ↔ a ⟨s, q⟩ = some v ∧ Matches q query) ∧
      Shared.queryStat loc m query s = joinList s.sv s.sv.default (L.map (·.2)) := by
  have key := SRep.run hsep h
  rw [hm] at key
  cases ha : SpotMap.run loc h with
  | error e => rw [ha] at key; exact key.elim
  | ok a =>
    rw [ha] at key
    have r : SRep loc m a := key
    obtain ⟨L, hL, hp, hmem, hst⟩ := r.statList hsep s
    have hpf : ((L.filter (fun p => p.1.qualifiesAs query)).map (·.1)).Pairwise KeyBefore.QualBefore := by
      rw [List.pairwise_map] at hp ⊢
      exact hp.sublist List.filter_sublist
    refine ⟨a, L.filter (fun p => p.1.qualifiesAs query), rfl, hpf, ?_, fun q v => ?_, ?_⟩
    · refine List.Nodup.of_map (fun p : Qualifier Q × s.Val => p.1) (hpf.imp ?_)
      rintro x _ hxy rfl
      rcases hxy with h | ⟨_, h⟩
      · exact absurd h (by simp)
      · exact absurd h (by simp)
    · rw [List.mem_filter, hmem, matches_iff]
    · unfold Shared.queryStat Pair.newDefault Pair.new Shared.streamStat
      rw [Buf.from_eq, if_pos hs]
      simp only [Res.bind_ok, Shared.slice_eq r.sorted]
      have hj : ∀ (L : List (Qualifier Q × s.Val)) (l : Vec E Q (Buf E)) (v : s.Val),
          l.map (fun e => (e.qual, e.buf)) = L.map (fun p => (p.1, .val s.ty p.2)) →
          StatMap.joinEntries s.vt query l (.val s.ty v) =
            StatMap.joinEntries s.vt query
              (L.map (fun p => (⟨⟨s.vt, s.index⟩, p.1, .val s.ty p.2⟩ : Entry E Q (Buf E)))) (.val s.ty v) := by
        intro L
        induction L with
        | nil =>
          intro l v hl
          have : l = [] := by simpa using hl
          rw [this]; rfl
        | cons p L ih =>
          intro l v hl
          cases l with
          | nil => cases hl
          | cons e l =>
            simp only [List.map_cons, List.cons.injEq, Prod.mk.injEq] at hl
            simp only [List.map_cons, StatMap.joinEntries, hl.1.1, hl.1.2]
            split
            · rw [show (Buf.val s.ty v : Buf E) = Buf.val (E.valTy s.vt) v from rfl, vtJoin_val hs]
              cases (E.sv (E.valTy s.vt)).join v p.2 with
              | error e => rfl
              | ok z => exact ih l z hl.2
            · exact ih l v hl.2
      have := joinEntries_eq s.vt hs query s.index L s.sv.default
      rw [hj L _ s.sv.default hL, this]
      cases joinList s.sv s.sv.default ((L.filter (fun p => p.1.qualifiesAs query)).map (·.2)) with
      | error e => rfl
      | ok z => exact Buf.read_val hs z

end query

/-! ### examples -/

/-- a program with two stat types of one value type -/
abbrev twins : Env := { demo with valTy := fun _ => true, statName := fun _ => "" }

/-- its vtables at one address still separate its one value type -/
theorem twins_separates : Separates (E := twins) (fun _ => 0) := fun _ _ _ => rfl

/-- a bonus inserted for one of the two stats is read, queried and removed as the other's -/
example : (Shared.run (E := twins) (Q := BitVec 8) (fun _ => 0)
    [.insert ⟨0, 0⟩ ⟨true, 3⟩ ⟨5, 0, 100, 1⟩, .insert ⟨0, 1⟩ ⟨false, 3⟩ ⟨6, 0, 100, 1⟩,
     .modifyWith ⟨0, 0⟩ ⟨false, 3⟩ (fun v => .ok { v with addend := v.addend + 1 })] >>= fun m => do
      let x ← Shared.get (fun _ => 0) m ⟨0, 0⟩ ⟨true, 3⟩
      let y ← Shared.queryStat (fun _ => 0) m (.aggregate 1#8) ⟨false, 3⟩
      let z ← Shared.get (fun _ => 0) m ⟨0, 0⟩ ⟨false, 4⟩
      .ok (x.map (·.addend), y.addend, z.isSome)) = .ok (some 6, 12, false) := by rfl

/-- the vtables of the demo program, which have two value types, at one address: a read misreads -/
example : (Shared.run (E := demo) (Q := BitVec 8) (fun _ => 0) [.insert ⟨0, 0⟩ (demoInt 3) ⟨5, 0, 100, 1⟩] >>= fun m =>
    Shared.get (fun _ => 0) m ⟨0, 0⟩ (demoFlag 3)) = .error .ub := by rfl


end BSQ
