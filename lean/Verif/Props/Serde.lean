import Verif.Model.Serde
import Verif.Props.StatMap
/-!
# C13–C15: saving and loading a `StatMap`
-/
set_option linter.unusedSectionVars false
namespace BSQ
variable {E : Env} {Q : Type} [DecidableEq Q] [Ord Q] [Std.TransOrd Q] [Std.LawfulEqOrd Q] (A : Addr E)

/-- the program's `Serialize`/`Deserialize` impls invert each other (what `derive` gives) -/
structure Serde.Lawful (X : Serde E Q) : Prop where
  qual : ∀ q, X.deQ (X.serQ q) = some q
  val : ∀ u x, X.de u (X.ser u x) = some x

theorem deField_zip {names : List String} (hn : names.Nodup) (vals : List Data)
    (hl : vals.length = names.length) : names.mapM (deField (names.zip vals)) = some vals := by
  have key : ∀ (ns : List String) (vs : List Data) (pre : List (String × Data)),
      vs.length = ns.length → (pre.map Prod.fst ++ ns).Nodup →
      ns.mapM (deField (pre ++ ns.zip vs)) = some vs := by
    intro ns
    induction ns with
    | nil => intro vs pre h _; simp at h; simp [h]
    | cons n ns ih =>
      intro vs pre h hn
      cases vs with
      | nil => simp at h
      | cons v vs =>
        have h1 : deField (pre ++ (n, v) :: ns.zip vs) n = some v := by
          have e1 : pre.filter (fun f => f.1 == n) = [] := by
            rw [List.filter_eq_nil_iff]
            rintro ⟨a, b⟩ hab he
            simp only [beq_iff_eq] at he
            subst he
            exact (List.nodup_append.1 hn).2.2 _ (List.mem_map.2 ⟨_, hab, rfl⟩) _ (by simp) rfl
          have e2 : (ns.zip vs).filter (fun f => f.1 == n) = [] := by
            rw [List.filter_eq_nil_iff]
            rintro ⟨a, b⟩ hab he
            simp only [beq_iff_eq] at he
            subst he
            have := (List.nodup_append.1 hn).2.1
            exact (List.nodup_cons.1 this).1 (List.of_mem_zip hab).1
          simp [deField, List.filter_append, e1, e2]
        have h2 := ih vs (pre ++ [(n, v)]) (by simpa using h) (by simpa using hn)
        simp only [List.append_assoc, List.singleton_append] at h2
        simp [List.mapM_cons, h1, h2]
  simpa using key names vals [] hl (by simpa using hn)

theorem deStruct_serStruct (f : Format) (names : List String) (hn : names.Nodup := by decide)
    (vals : List Data) (hl : vals.length = names.length := by rfl) :
    deStruct f names (serStruct f names vals) = some vals := by
  unfold serStruct
  split
  · exact deField_zip hn vals hl
  · simp [deStruct, deTuple, ← hl]

theorem Serde.roundtrip_list (X : Serde E Q) (reg : Registry E) (l : StatMap E Q)
    (hq : ∀ e ∈ l, X.deQ (X.serQ e.qual) = some e.qual)
    (hty : ∀ e ∈ l, ∃ x : e.stat.Val, e.buf = .val e.stat.ty x ∧ Storable (E.layout e.stat.ty) ∧
      X.de e.stat.ty (X.ser e.stat.ty x) = some x)
    (hsup : ∀ e ∈ l, X.supported e.stat.vt = true)
    (hreg : ∀ e ∈ l, ∃ n, e.stat.name = .ok n ∧ reg n = some e.stat) :
    ∃ ds, X.serEntries l = .ok ds ∧ X.deEntries (.registry reg) ds = .ok (some l) := by
  induction l with
  | nil => exact ⟨[], rfl, rfl⟩
  | cons e l ih =>
    obtain ⟨ds, h1, h2⟩ := ih (fun y hy => hq y (by simp [hy])) (fun y hy => hty y (by simp [hy]))
      (fun y hy => hsup y (by simp [hy])) (fun y hy => hreg y (by simp [hy]))
    obtain ⟨x, hx, hs, hv⟩ := hty e (by simp)
    have hqe := hq e (by simp)
    obtain ⟨n, hn, hr⟩ := hreg e (by simp)
    have hsu := hsup e (by simp)
    refine ⟨.seq [X.serQ e.qual, .str n, X.ser e.stat.ty x] :: ds, ?_, ?_⟩
    · simp only [serEntries, serEntry, hn, Res.bind_ok, asSerialize, hsu, if_true, hx, Buf.read_val hs, h1]
    · have h3 : X.deValue e.stat (X.ser e.stat.ty x) = .ok (some (.val e.stat.ty x)) := by
        simp only [deValue, hsu, if_true, validate_eq, hs, Res.bind_ok, hv, Buf.from_eq]
      have h4 : (⟨e.stat, e.qual, .val e.stat.ty x⟩ : Entry E Q (Buf E)) = e := by
        cases e; simp only at hx; rw [hx]
      simp only [deEntries, deEntry, hqe, deSecond, deStat, hr, Res.bind_ok, deThird, h3, h2]
      simp [h4]

/-- **C13** Serialising a reachable map and deserialising the result, in a world where the name of each
stored stat is registered for it, gives back the same map, provided the stored values and qualifiers survive
their own `Serialize`/`Deserialize` (see C65 for the types of the crate). -/
theorem C13_roundtrip_of_stored (X : Serde E Q) (h : List (MapOp E Q)) (m : StatMap E Q)
    (hm : StatMap.run A h = .ok m) (reg : Registry E)
    (hq : ∀ e ∈ m, X.deQ (X.serQ e.qual) = some e.qual)
    (hv : ∀ e ∈ m, ∀ x : e.stat.Val, e.buf = .val e.stat.ty x → X.de e.stat.ty (X.ser e.stat.ty x) = some x)
    (hsup : ∀ e ∈ m, X.supported e.stat.vt = true)
    (hreg : ∀ e ∈ m, ∃ n, e.stat.name = .ok n ∧ reg n = some e.stat) :
    ∃ d, X.serMap m = .ok d ∧ X.deMap (.registry reg) d = .ok (some m) := by
  obtain ⟨a, _, r⟩ := reachRep A hm
  obtain ⟨ds, h1, h2⟩ := X.roundtrip_list reg m hq
    (fun e he => by obtain ⟨x, _, hx, hs⟩ := r.mem he; exact ⟨x, hx, hs, hv e he x hx⟩) hsup hreg
  exact ⟨serStruct X.fmt ["inner"] [.seq ds], by simp [Serde.serMap, h1],
    by simp [Serde.deMap, deStruct_serStruct, h2]⟩

/-- **C13** When all values and qualifiers of the program survive their own `Serialize`/`Deserialize`, every
reachable map does. -/
theorem C13_roundtrip (X : Serde E Q) (hX : X.Lawful) (h : List (MapOp E Q)) (m : StatMap E Q)
    (hm : StatMap.run A h = .ok m) (reg : Registry E)
    (hsup : ∀ e ∈ m, X.supported e.stat.vt = true)
    (hreg : ∀ e ∈ m, ∃ n, e.stat.name = .ok n ∧ reg n = some e.stat) :
    ∃ d, X.serMap m = .ok d ∧ X.deMap (.registry reg) d = .ok (some m) :=
  C13_roundtrip_of_stored A X h m hm reg (fun e _ => hX.qual e.qual) (fun _ _ x _ => hX.val _ x) hsup hreg

theorem Serde.serEntries_iff (X : Serde E Q) : ∀ m : StatMap E Q,
    (∀ e ∈ m, ∃ x, e.buf = .val e.stat.ty x ∧ Storable (E.layout e.stat.ty)) →
    ((∃ d, X.serEntries m = .ok d) ↔ ∀ e ∈ m, X.supported e.stat.vt = true ∧ ∃ n, e.stat.name = .ok n) := by
  intro m
  induction m with
  | nil => intro _; simp [Serde.serEntries]
  | cons e m ih =>
    intro hm
    have ih := ih (fun y hy => hm y (by simp [hy]))
    obtain ⟨x, hx, hs⟩ := hm e (by simp)
    simp only [Serde.serEntries, Serde.serEntry, Serde.asSerialize, Res.bind_eq_ok, List.mem_cons, forall_eq_or_imp,
      ← ih]
    constructor
    · rintro ⟨d, d1, ⟨n, hn, v, hv, -⟩, ds, hds, -⟩
      refine ⟨⟨?_, n, hn⟩, ds, hds⟩
      by_contra hc
      rw [if_neg hc] at hv
      cases hv
    · rintro ⟨⟨h1, n, hn⟩, ds, hds⟩
      refine ⟨_, _, ⟨n, hn, X.ser e.stat.ty x, ?_, rfl⟩, ds, hds, rfl⟩
      rw [if_pos h1, hx, Buf.read_val hs]
      rfl

/-- **C13** A reachable map can be serialised exactly when all stored stats support it and have a name. -/
theorem C13_serialises_iff (X : Serde E Q) (h : List (MapOp E Q)) (m : StatMap E Q)
    (hm : StatMap.run A h = .ok m) :
    (∃ d, X.serMap m = .ok d) ↔ ∀ e ∈ m, X.supported e.stat.vt = true ∧ ∃ n, e.stat.name = .ok n := by
  obtain ⟨a, _, r⟩ := reachRep A hm
  rw [← X.serEntries_iff m fun e he => by obtain ⟨x, _, hx⟩ := r.mem he; exact ⟨x, hx⟩]
  simp only [Serde.serMap, Res.bind_eq_ok]
  exact ⟨fun ⟨_, ds, h, _⟩ => ⟨ds, h⟩, fun ⟨ds, h⟩ => ⟨_, ds, h, rfl⟩⟩

/-- an order-preserving encoding of the demonstration program's values -/
def demoSerde : Serde demo (BitVec 8) where
  serQ q := .other [q.anyOf.toNat, q.allOf.toNat]
  deQ d := match d with
    | .other [a, b] => some ⟨BitVec.ofInt 8 a, BitVec.ofInt 8 b⟩
    | _ => none
  ser u x := match u, x with
    | true, (x : StatInt) => .other [x.addend, x.min, x.max, x.mult]
    | false, (x : StatFlags (BitVec 8)) => .seq [.other [x.or.toNat], .other [x.not.toNat]]
  de u d := match u, d with
    | true, .other [a, b, c, d] => some (⟨a, b, c, d⟩ : StatInt)
    | false, .seq [.other [a], .other [b]] => some ({ or := BitVec.ofInt 8 a, not := BitVec.ofInt 8 b } : StatFlags (BitVec 8))
    | _, _ => none
  supported _ := true
  fmt := ⟨true, true⟩

theorem demoSerde_lawful : demoSerde.Lawful where
  qual q := by simp [demoSerde]
  val u x := by cases u <;> simp [demoSerde]

/-- C13: the demonstration program meets the hypotheses with a map over two stat types. -/
example : ∃ m, StatMap.run demoAddr (Q := BitVec 8)
      [.insert ⟨0, 0⟩ (demoFlag 1) ⟨0, 5⟩, .insert ⟨1, 0⟩ (demoInt 0) ⟨6, 0, 9, 1⟩] = .ok m ∧ m.length = 2 ∧
    (∀ e ∈ m, demoSerde.supported e.stat.vt = true) ∧
    (∀ e ∈ m, ∃ n, e.stat.name = .ok n ∧
      (fun n => if n = "flag1" then some (demoFlag 1) else if n = "int0" then some (demoInt 0) else none) n =
        some e.stat) := by
  refine ⟨_, rfl, rfl, fun _ _ => rfl, ?_⟩
  rintro e (_ | ⟨_, _ | ⟨_, h⟩⟩)
  · exact ⟨"int0", rfl, rfl⟩
  · exact ⟨"flag1", rfl, rfl⟩
  · cases h

/-- what a well-formed serialised entry is, and which entry it stands for -/
def Serde.Decodes (X : Serde E Q) (reg : Registry E) (d : Data) (e : Entry E Q (Buf E)) : Prop :=
  ∃ dq n dv rest x, d = .seq (dq :: .str n :: dv :: rest) ∧ (X.fmt.strictEnd = true → rest = []) ∧
    X.deQ dq = some e.qual ∧ reg n = some e.stat ∧ X.de e.stat.ty dv = some x ∧ e.buf = .val e.stat.ty x

/-- **C14** An entry is accepted exactly when it consists of a qualifier, the registered name of a stat and a
value of that stat's type; then the stored value has that type.  (Only stats whose type supports
serialisation and can be stored; for the others see `C14_unsupported_panics`.) -/
theorem C14_entry_accepted_iff (X : Serde E Q) (reg : Registry E)
    (hsup : ∀ s, X.supported s = true) (hst : ∀ u, Storable (E.layout u)) (d : Data) :
    ∃ o, X.deEntry (.registry reg) d = .ok o ∧ ∀ e, o = some e ↔ X.Decodes reg d e := by
  have no : ∀ d, (∀ e, ¬ X.Decodes reg d e) →
      ∃ o, (Except.ok none : Res (Option (Entry E Q (Buf E)))) = .ok o ∧ ∀ e, o = some e ↔ X.Decodes reg d e :=
    fun d h => ⟨none, rfl, fun e => ⟨fun h => (nomatch h), fun h' => absurd h' (h e)⟩⟩
  cases d with
  | str s => exact no _ (by rintro e ⟨_, _, _, _, _, h, _⟩; cases h)
  | fields s => exact no _ (by rintro e ⟨_, _, _, _, _, h, _⟩; cases h)
  | other s => exact no _ (by rintro e ⟨_, _, _, _, _, h, _⟩; cases h)
  | unit => exact no _ (by rintro e ⟨_, _, _, _, _, h, _⟩; cases h)
  | bool s => exact no _ (by rintro e ⟨_, _, _, _, _, h, _⟩; cases h)
  | int s => exact no _ (by rintro e ⟨_, _, _, _, _, h, _⟩; cases h)
  | float s => exact no _ (by rintro e ⟨_, _, _, _, _, h, _⟩; cases h)
  | unitVariant s => exact no _ (by rintro e ⟨_, _, _, _, _, h, _⟩; cases h)
  | newtypeVariant s t => exact no _ (by rintro e ⟨_, _, _, _, _, h, _⟩; cases h)
  | seq l =>
    cases l with
    | nil => exact no _ (by rintro e ⟨_, _, _, _, _, h, _⟩; cases h)
    | cons dq l =>
      simp only [Serde.deEntry]
      cases hq : X.deQ dq with
      | none =>
        refine no _ ?_
        rintro e ⟨_, _, _, _, _, h, _, h2, _⟩
        cases h
        rw [hq] at h2; cases h2
      | some q =>
        cases l with
        | nil => exact no _ (by rintro e ⟨_, _, _, _, _, h, _⟩; cases h)
        | cons dn l =>
          cases dn with
          | seq _ => exact no _ (by rintro e ⟨_, _, _, _, _, h, _⟩; cases h)
          | fields _ => exact no _ (by rintro e ⟨_, _, _, _, _, h, _⟩; cases h)
          | other _ => exact no _ (by rintro e ⟨_, _, _, _, _, h, _⟩; cases h)
          | unit => exact no _ (by rintro e ⟨_, _, _, _, _, h, _⟩; cases h)
          | bool s => exact no _ (by rintro e ⟨_, _, _, _, _, h, _⟩; cases h)
          | int s => exact no _ (by rintro e ⟨_, _, _, _, _, h, _⟩; cases h)
          | float s => exact no _ (by rintro e ⟨_, _, _, _, _, h, _⟩; cases h)
          | unitVariant s => exact no _ (by rintro e ⟨_, _, _, _, _, h, _⟩; cases h)
          | newtypeVariant s t => exact no _ (by rintro e ⟨_, _, _, _, _, h, _⟩; cases h)
          | str n =>
            simp only [Serde.deSecond, Serde.deStat, Res.bind_ok]
            cases hr : reg n with
            | none =>
              refine no _ ?_
              rintro e ⟨_, _, _, _, _, h, _, _, h3, _⟩
              cases h
              rw [hr] at h3; cases h3
            | some s =>
              cases l with
              | nil => exact no _ (by rintro e ⟨_, _, _, _, _, h, _⟩; cases h)
              | cons dv rest =>
                simp only [Serde.deThird, Serde.deValue, hsup, if_true, validate_eq, hst, Res.bind_ok]
                cases hv : X.de s.ty dv with
                | none =>
                  refine no _ ?_
                  rintro ⟨es, eq, eb⟩ ⟨_, _, _, _, _, h, _, _, h3, h4, _⟩
                  cases h
                  rw [hr] at h3
                  simp only [Option.some.injEq] at h3
                  subst h3
                  rw [hv] at h4; cases h4
                | some x =>
                  simp only [Buf.from_eq, hst, if_true, Res.bind_ok]
                  by_cases hend : X.fmt.strictEnd = true ∧ rest ≠ []
                  · have : (X.fmt.strictEnd && !rest.isEmpty) = true := by
                      simp [hend.1, hend.2]
                    rw [if_pos this]
                    refine no _ ?_
                    rintro e ⟨_, _, _, _, _, h, h1, _⟩
                    cases h
                    exact hend.2 (h1 hend.1)
                  · have : ¬ (X.fmt.strictEnd && !rest.isEmpty) = true := by
                      simpa using hend
                    rw [if_neg this]
                    refine ⟨_, rfl, fun e => ?_⟩
                    constructor
                    · intro h
                      cases h
                      exact ⟨dq, n, dv, rest, x, rfl, fun h => by
                        by_contra hne; exact hend ⟨h, hne⟩, hq, hr, hv, rfl⟩
                    · rintro ⟨_, _, _, _, y, h, h1, h2, h3, h4, h5⟩
                      cases h
                      obtain ⟨es, eq, eb⟩ := e
                      rw [hq] at h2
                      rw [hr] at h3
                      simp only [Option.some.injEq] at h2 h3
                      subst h2 h3
                      rw [hv] at h4
                      simp only [Option.some.injEq] at h4
                      subst h4
                      simp only at h5
                      rw [h5]

/-- **C14** The ways of failing, each on its own: unregistered name, missing qualifier, name or value, a
value or qualifier its type rejects, no deserialisation scope. -/
theorem C14_rejects (X : Serde E Q) (sc : DeScope E) (reg : Registry E) (dq dv : Data) (n : String)
    (rest : List Data) :
    X.deEntry sc (.seq []) = .ok none ∧
    X.deEntry sc (.seq [dq]) = .ok none ∧
    (X.deQ dq = none → X.deEntry sc (.seq (dq :: rest)) = .ok none) ∧
    (reg n = none → X.deEntry (.registry reg) (.seq (dq :: .str n :: rest)) = .ok none) ∧
    (X.deEntry (.registry reg) (.seq [dq, .str n]) = .ok none) ∧
    (X.deEntry .noScope (.seq (dq :: .str n :: rest)) = .ok none) ∧
    (∀ s, reg n = some s → X.supported s.vt = true → Storable (E.layout s.ty) → X.de s.ty dv = none →
      X.deEntry (.registry reg) (.seq (dq :: .str n :: dv :: rest)) = .ok none) := by
  have case : ∀ {d l sc}, X.deEntry sc (.seq (d :: l)) =
      match X.deQ d with
      | none => .ok none
      | some q => X.deSecond sc q l := fun {d l sc} => rfl
  refine ⟨rfl, ?_, ?_, ?_, ?_, ?_, ?_⟩
  · rw [case]; cases X.deQ dq <;> rfl
  · intro h; rw [case, h]
  · intro h; rw [case]; cases X.deQ dq
    · rfl
    · simp [Serde.deSecond, Serde.deStat, h]
  · rw [case]; cases X.deQ dq
    · rfl
    · cases h : reg n <;> simp [Serde.deSecond, Serde.deStat, h, Serde.deThird]
  · rw [case]; cases X.deQ dq
    · rfl
    · simp [Serde.deSecond, Serde.deStat]
  · intro s h1 h2 h3 h4; rw [case]; cases X.deQ dq
    · rfl
    · simp [Serde.deSecond, Serde.deStat, h1, Serde.deThird, Serde.deValue, h2, validate_eq, h3, h4]

/-- C14: a stat without serialisation support, or one that cannot be stored, panics instead. -/
theorem C14_unsupported_panics (X : Serde E Q) (reg : Registry E) (dq dv : Data) (n : String)
    (rest : List Data) (q : Qualifier Q) (hq : X.deQ dq = some q) (s : StatInst E) (h : reg n = some s)
    (hs : X.supported s.vt = false ∨ ¬ Storable (E.layout s.ty)) :
    X.deEntry (.registry reg) (.seq (dq :: .str n :: dv :: rest)) = .error .panic := by
  simp only [Serde.deEntry, hq, Serde.deSecond, Serde.deStat, h, Res.bind_ok, Serde.deThird, Serde.deValue]
  rcases hs with hs | hs
  · simp [hs]
  · cases X.supported s.vt <;> simp [validate_eq, hs]

/-- C14: in a world without the registry, reading a stat's name panics instead (after the qualifier was read);
anything that is not a name is an error as everywhere else. -/
theorem C14_no_registry_panics (X : Serde E Q) (dq : Data) (n : String) (rest : List Data) (q : Qualifier Q)
    (hq : X.deQ dq = some q) :
    X.deEntry .noResource (.seq (dq :: .str n :: rest)) = .error .panic ∧
    ∀ d, (∀ m, d ≠ .str m) → X.deEntry .noResource (.seq (dq :: d :: rest)) = .ok none := by
  refine ⟨by simp [Serde.deEntry, hq, Serde.deSecond, Serde.deStat], fun d hd => ?_⟩
  simp only [Serde.deEntry, hq, Serde.deSecond]
  cases d <;> first | exact absurd rfl (hd _) | simp [Serde.deStat]

theorem Serde.deEntries_iff (X : Serde E Q) (sc : DeScope E) (l : List Data) (m : List (Entry E Q (Buf E))) :
    X.deEntries sc l = .ok (some m) ↔ List.Forall₂ (fun d e => X.deEntry sc d = .ok (some e)) l m := by
  induction l generalizing m with
  | nil =>
    simp only [Serde.deEntries, Except.ok.injEq, Option.some.injEq, List.forall₂_nil_left_iff]
    exact eq_comm
  | cons d l ih =>
    rw [List.forall₂_cons_left_iff]
    simp only [Serde.deEntries]
    cases h : X.deEntry sc d with
    | error e => simp
    | ok o =>
      cases o with
      | none => simp
      | some e =>
        simp only [Res.bind_ok, Except.ok.injEq, Option.some.injEq]
        cases h2 : X.deEntries sc l with
        | error e' =>
          simp only [Res.bind_error, reduceCtorEq, false_iff]
          rintro ⟨_, u, _, hu, _⟩
          rw [← ih, h2] at hu
          cases hu
        | ok o' =>
          simp only [Res.bind_ok, Except.ok.injEq]
          constructor
          · intro h3
            cases o' with
            | none => cases h3
            | some es =>
              simp only [Option.map_some, Option.some.injEq] at h3
              subst h3
              exact ⟨e, es, rfl, (ih es).mp h2, rfl⟩
          · rintro ⟨_, u, rfl, hu, rfl⟩
            rw [← ih, h2] at hu
            cases hu
            rfl

/-- **C14** A whole map, with whatever scope and format: it is loaded exactly when the input has the one field
`inner` holding a sequence each of whose entries is accepted; the entries are kept in order.  So one bad entry
makes the whole map fail. -/
theorem C14_map_iff (X : Serde E Q) (sc : DeScope E) (d : Data) (m : StatMap E Q) :
    X.deMap sc d = .ok (some m) ↔ ∃ l, deStruct X.fmt ["inner"] d = some [.seq l] ∧
      List.Forall₂ (fun d e => X.deEntry sc d = .ok (some e)) l m := by
  unfold Serde.deMap
  split
  · rename_i l h
    rw [Serde.deEntries_iff, h]
    simp only [Option.some.injEq, List.cons.injEq, Data.seq.injEq, and_true]
    exact ⟨fun h => ⟨l, rfl, h⟩, by rintro ⟨_, rfl, h⟩; exact h⟩
  · rename_i h
    simp only [Except.ok.injEq, reduceCtorEq, false_iff]
    rintro ⟨l, hl, _⟩
    exact h l hl

/-- **C14** Loading in a world with a registry, the stats being supported and storable, never panics: the outcome
is the map whose entries the input stands for one by one, and an error if there is none. -/
theorem C14_map_accepted_iff (X : Serde E Q) (reg : Registry E)
    (hsup : ∀ s, X.supported s = true) (hst : ∀ u, Storable (E.layout u)) (d : Data) :
    ∃ o, X.deMap (.registry reg) d = .ok o ∧ ∀ m, o = some m ↔
      ∃ l, deStruct X.fmt ["inner"] d = some [.seq l] ∧ List.Forall₂ (X.Decodes reg) l m := by
  have key : ∀ d e, X.deEntry (.registry reg) d = .ok (some e) ↔ X.Decodes reg d e := by
    intro d e
    obtain ⟨o, h1, h2⟩ := C14_entry_accepted_iff X reg hsup hst d
    rw [h1, ← h2, Except.ok.injEq]
  have total : ∀ l, ∃ o, X.deEntries (.registry reg) l = .ok o := by
    intro l
    induction l with
    | nil => exact ⟨_, rfl⟩
    | cons d l ih =>
      obtain ⟨o, h1, _⟩ := C14_entry_accepted_iff X reg hsup hst d
      obtain ⟨o', h2⟩ := ih
      cases o <;> simp [Serde.deEntries, h1, h2]
  have hok : ∃ o, X.deMap (.registry reg) d = .ok o := by
    unfold Serde.deMap
    split
    · exact total _
    · exact ⟨_, rfl⟩
  obtain ⟨o, ho⟩ := hok
  refine ⟨o, ho, fun m => ?_⟩
  have := C14_map_iff X (.registry reg) d m
  rw [ho, Except.ok.injEq] at this
  rw [this]
  simp only [key]

/-- C14: a map with an unregistered name between two good entries is rejected as a whole, while without it the
same input loads. -/
example :
    let reg : Registry demo := fun n => if n = "int0" then some (demoInt 0) else none
    let good : Data := .seq [demoSerde.serQ ⟨0, 0⟩, .str "int0", demoSerde.ser _ (show (demoInt 0).Val from ⟨6, 0, 9, 1⟩)]
    let bad : Data := .seq [demoSerde.serQ ⟨0, 0⟩, .str "flag1", demoSerde.ser _ (show (demoFlag 1).Val from ⟨0, 5⟩)]
    (∃ m, demoSerde.deMap (.registry reg) (serStruct demoSerde.fmt ["inner"] [.seq [good, good]]) = .ok (some m) ∧ m.length = 2) ∧
    demoSerde.deMap (.registry reg) (serStruct demoSerde.fmt ["inner"] [.seq [good, bad, good]]) = .ok none := by
  exact ⟨⟨_, rfl, rfl⟩, rfl⟩

/-- **C14** Whatever the input, format, scope and registry: if a map is loaded, each stored value has its
stat's value type. -/
theorem C14_loaded_typed (X : Serde E Q) (sc : DeScope E) (d : Data) (m : StatMap E Q)
    (hm : X.deMap sc d = .ok (some m)) :
    ∀ e ∈ m, ∃ x : e.stat.Val, e.buf = .val e.stat.ty x ∧ Storable (E.layout e.stat.ty) := by
  have hone : ∀ d e, X.deEntry sc d = .ok (some e) →
      ∃ x : e.stat.Val, e.buf = .val e.stat.ty x ∧ Storable (E.layout e.stat.ty) := by
    intro d e he
    unfold Serde.deEntry at he
    split at he
    · cases he
    · split at he
      · cases he
      · rename_i q _
        unfold Serde.deSecond at he
        split at he
        · cases he
        · obtain ⟨so, h1, h2⟩ := Res.bind_eq_ok.1 he
          cases so with
          | none => cases h2
          | some s =>
            simp only at h2
            unfold Serde.deThird at h2
            split at h2
            · cases h2
            · obtain ⟨bo, h3, h4⟩ := Res.bind_eq_ok.1 h2
              cases bo with
              | none => cases h4
              | some b =>
                simp only at h4
                split at h4
                · cases h4
                · cases h4
                  unfold Serde.deValue at h3
                  split at h3
                  · rw [validate_eq] at h3
                    split at h3
                    · rename_i hst
                      simp only [Res.bind_ok] at h3
                      split at h3
                      · cases h3
                      · rename_i v _
                        rw [Buf.from_eq, if_pos hst] at h3
                        cases h3
                        exact ⟨v, rfl, hst⟩
                    · cases h3
                  · cases h3
    · cases he
  have hlist : ∀ l m, X.deEntries sc l = .ok (some m) →
      ∀ e ∈ m, ∃ x : e.stat.Val, e.buf = .val e.stat.ty x ∧ Storable (E.layout e.stat.ty) := by
    intro l
    induction l with
    | nil => intro m hm; cases hm; simp
    | cons d l ih =>
      intro m hm
      unfold Serde.deEntries at hm
      obtain ⟨eo, h1, h2⟩ := Res.bind_eq_ok.1 hm
      cases eo with
      | none => cases h2
      | some e =>
        simp only at h2
        obtain ⟨eso, h3, h4⟩ := Res.bind_eq_ok.1 h2
        cases eso with
        | none => cases h4
        | some es =>
          cases h4
          intro e' he'
          rcases List.mem_cons.1 he' with rfl | he'
          · exact hone d _ h1
          · exact ih es h3 e' he'
  unfold Serde.deMap at hm
  split at hm
  · exact hlist _ m hm
  · cases hm

/-- C14: accepted and rejected inputs of the demonstration program -/
example :
    let reg : Registry demo := fun n => if n = "int0" then some (demoInt 0) else none
    (∃ e, demoSerde.deEntry (.registry reg) (.seq [.other [1, 0], .str "int0", .other [6, 0, 9, 1]]) =
      .ok (some e) ∧ e.stat = demoInt 0) ∧
    demoSerde.deEntry (.registry reg) (.seq [.other [1, 0], .str "int0", .str "x"]) = .ok none ∧
    demoSerde.deEntry (.registry reg) (.seq [.other [1, 0], .str "int1", .other [6, 0, 9, 1]]) = .ok none := by
  refine ⟨⟨_, rfl, rfl⟩, rfl, rfl⟩

/-! ### another process -/

/-- **C15 is refuted.** The loaded vector keeps the saved order, which follows vtable addresses.  With two
stat types whose vtables are the other way around, the loaded map no longer finds a stored stat, and querying
the other one reads a value at the wrong type (undefined behaviour). -/
theorem C15_refuted_other_addresses :
    let reg : Registry demo := fun n =>
      if n = "int0" then some (demoInt 0) else if n = "flag1" then some (demoFlag 1) else none
    ∃ (m : StatMap demo (BitVec 8)) (d : Data),
      StatMap.run demoAddr [.insert ⟨0, 0⟩ (demoFlag 1) ⟨0, 5⟩, .insert ⟨0, 0⟩ (demoInt 0) ⟨6, 0, 9, 1⟩] = .ok m ∧
      demoSerde.serMap m = .ok d ∧ demoSerde.deMap (.registry reg) d = .ok (some m) ∧
      StatMap.get demoAddr m ⟨0, 0⟩ (demoInt 0) = .ok (some ⟨6, 0, 9, 1⟩) ∧
      StatMap.get demoAddr' m ⟨0, 0⟩ (demoInt 0) = .ok none ∧
      StatMap.evalStat demoAddr m QualifierQuery.none (demoFlag 1) = .ok 5#8 ∧
      StatMap.evalStat demoAddr' m QualifierQuery.none (demoFlag 1) = .error .ub :=
  ⟨_, _, rfl, rfl, rfl, rfl, rfl, rfl, rfl⟩

/-- the two processes order the vtables of the stored stats alike -/
def SameOrder (A A' : Addr E) (m : StatMap E Q) : Prop :=
  ∀ e ∈ m, ∀ e' ∈ m, compare (A.at_ e.stat.vt) (A.at_ e'.stat.vt) =
    compare (A'.at_ e.stat.vt) (A'.at_ e'.stat.vt)

theorem Rep.other {A A' : Addr E} {m : StatMap E Q} {a : PMap E Q} (r : Rep A m a) (h : SameOrder A A' m) :
    Rep A' m a := by
  refine ⟨?_, r.holds, r.storable⟩
  have := List.pairwise_map.1 r.sorted
  unfold Vec.Sorted
  rw [List.pairwise_map]
  refine this.imp_of_mem ?_
  intro x y hx hy hxy
  have hc := h x hx y hy
  simp only [Vec.KLt, Key.cmp, StatInst.cmp] at hxy ⊢
  rw [← hc]; exact hxy

/-- **C15** (the part that holds): when the vtables of the stored stat types are in the same order in both
processes — in particular when all stored stats are of one type — the loaded map gives the same answers.
Missing: other address assignments, refuted above. -/
theorem C15_same_order_partial {Q : Type} [BitFlags Q] [FlagSet Q] [Ord Q] [Std.TransOrd Q]
    [Std.LawfulEqOrd Q] (A A' : Addr E) (X : Serde E Q) (hX : X.Lawful) (h : List (MapOp E Q))
    (m : StatMap E Q) (hm : StatMap.run A h = .ok m) (reg : Registry E)
    (hsup : ∀ e ∈ m, X.supported e.stat.vt = true)
    (hreg : ∀ e ∈ m, ∃ n, e.stat.name = .ok n ∧ reg n = some e.stat)
    (hord : SameOrder A A' m) :
    ∃ d m', X.serMap m = .ok d ∧ X.deMap (.registry reg) d = .ok (some m') ∧
      (∀ q s, StatMap.get A' m' q s = StatMap.get A m q s) ∧
      (∀ s, StatMap.iter A' m' s = StatMap.iter A m s) ∧
      (∀ query s, StatMap.queryStat A' m' query s = StatMap.queryStat A m query s) ∧
      (∀ query s, StatMap.evalStat A' m' query s = StatMap.evalStat A m query s) := by
  obtain ⟨d, h1, h2⟩ := C13_roundtrip A X hX h m hm reg hsup hreg
  obtain ⟨a, _, r⟩ := reachRep A hm
  have r' := r.other hord
  have hq : ∀ query s, StatMap.queryStat A' m query s = StatMap.queryStat A m query s := by
    intro query s
    unfold StatMap.queryStat StatMap.streamStat
    simp only [Vec.slice_eq r.sorted, Vec.slice_eq r'.sorted]
  refine ⟨d, m, h1, h2, fun q s => by rw [r.get, r'.get], fun s => ?_, hq, fun query s => ?_⟩
  · unfold StatMap.iter
    simp only [Vec.slice_eq r.sorted, Vec.slice_eq r'.sorted]
  · unfold StatMap.evalStat
    rw [hq]

/-- two processes in which the same vector is sorted order the vtables of its stats alike -/
theorem SameOrder.of_sorted {Q : Type} [Ord Q] [Std.TransOrd Q] [Std.LawfulEqOrd Q] {A A' : Addr E}
    {m : StatMap E Q} (h : Vec.Sorted A m) (h' : Vec.Sorted A' m) : SameOrder A A' m := by
  have key : ∀ (A A' : Addr E) (a b : Key E Q), Vec.KLt A a b → Vec.KLt A' a b →
      compare (A.at_ a.stat.vt) (A.at_ b.stat.vt) = compare (A'.at_ a.stat.vt) (A'.at_ b.stat.vt) := by
    intro A A' a b h h'
    simp only [Vec.KLt, Key.cmp, StatInst.cmp, Ordering.then_eq_lt, Ordering.then_eq_eq, Nat.compare_eq_eq] at h h'
    by_cases hv : a.stat.vt = b.stat.vt
    · rw [hv]; simp
    · have h1 : compare (A.at_ a.stat.vt) (A.at_ b.stat.vt) = .lt := by
        rcases h with (h | ⟨h, _⟩) | ⟨⟨h, _⟩, _⟩
        · exact h
        · exact absurd (A.inj h) hv
        · exact absurd (A.inj h) hv
      have h2 : compare (A'.at_ a.stat.vt) (A'.at_ b.stat.vt) = .lt := by
        rcases h' with (h | ⟨h, _⟩) | ⟨⟨h, _⟩, _⟩
        · exact h
        · exact absurd (A'.inj h) hv
        · exact absurd (A'.inj h) hv
      rw [h1, h2]
  have hp := List.pairwise_iff_getElem.1 (List.pairwise_map.1 h)
  have hp' := List.pairwise_iff_getElem.1 (List.pairwise_map.1 h')
  intro e he e' he'
  obtain ⟨i, hi, rfl⟩ := List.mem_iff_getElem.1 he
  obtain ⟨j, hj, rfl⟩ := List.mem_iff_getElem.1 he'
  rcases Nat.lt_trichotomy i j with hij | rfl | hij
  · exact key A A' _ _ (hp i j hi hj hij) (hp' i j hi hj hij)
  · simp
  · have := key A A' _ _ (hp j i hj hi hij) (hp' j i hj hi hij)
    simp only [Entry.key] at this
    rw [Nat.compare_swap .. |>.symm, this, Nat.compare_swap]

/-- C15, exactly: the loaded map still finds everything that was stored, if and only if the two processes order
the vtables of the stored stats alike.  (Then all answers are the same, `C15_same_order_partial`.) -/
theorem C15_iff {Q : Type} [BitFlags Q] [FlagSet Q] [Ord Q] [Std.TransOrd Q]
    [Std.LawfulEqOrd Q] (A A' : Addr E) (X : Serde E Q) (hX : X.Lawful) (h : List (MapOp E Q))
    (m : StatMap E Q) (hm : StatMap.run A h = .ok m) (reg : Registry E)
    (hsup : ∀ e ∈ m, X.supported e.stat.vt = true)
    (hreg : ∀ e ∈ m, ∃ n, e.stat.name = .ok n ∧ reg n = some e.stat) :
    ∃ d m', X.serMap m = .ok d ∧ X.deMap (.registry reg) d = .ok (some m') ∧
      ((∀ q s v, StatMap.get A m q s = .ok (some v) → StatMap.get A' m' q s = .ok (some v)) ↔
        SameOrder A A' m) := by
  obtain ⟨d, h1, h2⟩ := C13_roundtrip A X hX h m hm reg hsup hreg
  obtain ⟨a, _, r⟩ := reachRep A hm
  refine ⟨d, m, h1, h2, fun hall => ?_, fun hord q s v => ?_⟩
  · refine SameOrder.of_sorted r.sorted (Vec.sorted_of_found r.sorted.nodup fun e he => ?_)
    have hf : ∃ b, Vec.lookup m e.key = some b := by
      rw [← Option.isSome_iff_exists, Vec.lookup, Option.isSome_map, List.find?_isSome]
      exact ⟨e, he, by simp⟩
    obtain ⟨b, hb⟩ := hf
    rw [r.holds] at hb
    obtain ⟨v, hv, _⟩ := Option.map_eq_some_iff.1 hb
    have := hall e.qual e.stat v (by rw [r.get]; exact congrArg Except.ok hv)
    unfold StatMap.get at this
    cases hx : Vec.find A' m e.qual e.stat with
    | none => rw [hx] at this; cases this
    | some b => rfl
  · rw [r.get, (r.other hord).get]
    exact id

/-- C15: a map over one stat type meets the order condition for any two processes -/
theorem SameOrder.of_one_type (A A' : Addr E) (T : E.S) (m : StatMap E Q) (h : ∀ e ∈ m, e.stat.vt = T) :
    SameOrder A A' m := by
  intro e he e' he'
  rw [h e he, h e' he']
  simp

end BSQ
