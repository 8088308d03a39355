import Verif.Proofs.Merged
import Verif.Props.SharedMap
import Verif.Props.Multimap
import Verif.Props.DropTyped
/-! # C136: stat types that share an address are, to a `StatMap`, one stat type -/
set_option linter.unusedSectionVars false
namespace BSQ
open StatMap

section calls
variable {P : Env} {N : StatTypes} {place : N.S → P.S} {Q : Type} [Ord Q]

/-- **C136** Each call, on any map whatsoever, does what the same call does in the merged program. -/
theorem C136_call (A : Addr P) (m : StatMap (P.spread N place) Q) (o : MultiOp (P.spread N place) Q) :
    (Shared.multiStep (fun v => A.at_ (place v)) m o).map StatMap.merged = StatMap.multiStep A m.merged o.merged := by
  have hput : ∀ q (s : StatInst (P.spread N place)) (x : s.Val),
      (Buf.from_ (E := P.spread N place) s.ty x >>= fun b => .ok (Shared.put (mloc A place) m q s b)).map StatMap.merged =
        Buf.from_ (E := P) s.merged.ty x >>= fun b => .ok (Vec.put A m.merged q s.merged b).1 := by
    intro q s x
    rw [← Buf.from_merged (N := N) (place := place)]
    cases Buf.from_ (E := P.spread N place) s.ty x with
    | error e => rfl
    | ok b => exact congrArg Except.ok (put_merged m A q s b)
  have hget : ∀ q (s : StatInst (P.spread N place)),
      StatMap.get A m.merged q s.merged = Shared.get (mloc A place) m q s := by
    intro q s
    unfold StatMap.get Shared.get
    rw [find_merged]
    cases Shared.find (mloc A place) m q s with
    | none => rfl
    | some b =>
      show (b.merged.read _ >>= _) = _
      rw [Buf.read_merged]
      rfl
  cases o with
  | one o =>
    cases o with
    | insert q s v => exact hput q s v
    | insertBase q s b => exact hput q s _
    | modify q s o =>
      show Except.map _ (Shared.get (mloc A place) m q s >>= _) = StatMap.get A m.merged q s.merged >>= _
      rw [hget]
      cases Shared.get (mloc A place) m q s with
      | error e => rfl
      | ok cur =>
        cases cur with
        | some v =>
          simp only [Res.bind_ok]
          show Except.map _ (o.writeTo v >>= _) = o.writeTo v >>= _
          cases o.writeTo v with
          | error e => rfl
          | ok v' => exact congrArg Except.ok (update_merged m A q s (.val s.ty v'))
        | none =>
          simp only [Res.bind_ok]
          show Except.map _ (o.intoStat >>= _) = o.intoStat >>= _
          cases o.intoStat with
          | error e => rfl
          | ok v => exact hput q s v
    | modifyWith q s f =>
      show Except.map _ (Shared.get (mloc A place) m q s >>= _) = StatMap.get A m.merged q s.merged >>= _
      rw [hget]
      cases Shared.get (mloc A place) m q s with
      | error e => rfl
      | ok cur =>
        cases cur with
        | some v =>
          simp only [Res.bind_ok]
          show Except.map _ (f v >>= _) = f v >>= _
          cases f v with
          | error e => rfl
          | ok v' => exact congrArg Except.ok (update_merged m A q s (.val s.ty v'))
        | none =>
          simp only [Res.bind_ok]
          show Except.map _ (f s.sv.default >>= _) = f s.sv.default >>= _
          cases f s.sv.default with
          | error e => rfl
          | ok v => exact hput q s v
    | getMut q s f =>
      show Except.map _ (Shared.get (mloc A place) m q s >>= _) = StatMap.get A m.merged q s.merged >>= _
      rw [hget]
      cases Shared.get (mloc A place) m q s with
      | error e => rfl
      | ok cur =>
        cases cur with
        | none => rfl
        | some v =>
          simp only [Res.bind_ok]
          show Except.map _ (f v >>= _) = f v >>= _
          cases f v with
          | error e => rfl
          | ok v' => exact congrArg Except.ok (update_merged m A q s (.val s.ty v'))
    | iterMut s f =>
      refine (sliceMut_merged m A s (fun b => do
        let v ← b.read s.ty
        .ok (.val s.ty (f v))) (fun b => do
        let v ← b.read s.merged.ty
        .ok (.val s.merged.ty (f v))) fun b => ?_).symm
      rw [Buf.read_merged]
      show (Buf.read (E := P.spread N place) s.ty b >>= _) = Except.map _ (Buf.read (E := P.spread N place) s.ty b >>= _)
      cases Buf.read (E := P.spread N place) s.ty b <;> rfl
    | remove q s =>
      show Except.map _ ((StatMap.readAs s (Shared.pull (mloc A place) m q s).2 >>= _) >>= _) =
        (StatMap.readAs s.merged (Vec.pull A m.merged q s.merged).2 >>= fun v =>
          .ok ((Vec.pull A m.merged q s.merged).1, v)) >>= fun r => .ok r.1
      rw [pull_merged]
      cases (Shared.pull (mloc A place) m q s).2 with
      | none => rfl
      | some b =>
        show Except.map _ (((Buf.read (E := P.spread N place) s.ty b >>= _) >>= _) >>= _) =
          ((b.merged.read s.merged.ty >>= _) >>= _) >>= _
        rw [Buf.read_merged]
        show Except.map _ (((Buf.read (E := P.spread N place) s.ty b >>= _) >>= _) >>= _) =
          ((Buf.read (E := P.spread N place) s.ty b >>= _) >>= _) >>= _
        cases Buf.read (E := P.spread N place) s.ty b <;> rfl
    | removeAll s =>
      show Except.map _ (Shared.drain (mloc A place) m s >>= _) = Vec.removeAll A m.merged s.merged >>= _
      rw [drain_merged]
      cases Shared.drain (mloc A place) m s with
      | error e => rfl
      | ok r =>
        show Except.map _ (StatMap.dropAll r.2 >>= _) = StatMap.dropAll (r.2.map Entry.merged) >>= _
        rw [dropAll_merged]
        cases StatMap.dropAll r.2 <;> rfl
    | clear =>
      show Except.map _ (StatMap.dropAll m >>= _) = StatMap.dropAll (List.map Entry.merged m) >>= _
      rw [dropAll_merged]
      cases StatMap.dropAll m <;> rfl
  | extend T items =>
    show Except.map _ (StatMap.entries (E := P.spread N place) T items >>= _) =
      StatMap.entries (E := P) (place T) items >>= _
    rw [entries_merged]
    cases StatMap.entries (E := P.spread N place) T items with
    | error e => rfl
    | ok l =>
      refine congrArg Except.ok ?_
      rw [← sorted_merged]
      unfold StatMap.merged
      rw [List.map_append]
  | collect T items =>
    show Except.map _ (StatMap.entries (E := P.spread N place) T items >>= _) =
      StatMap.entries (E := P) (place T) items >>= _
    rw [entries_merged]
    cases StatMap.entries (E := P.spread N place) T items with
    | error e => rfl
    | ok l => exact congrArg Except.ok (sorted_merged l A).symm

/-- **C136** Every history, bulk calls included, does what it does in the merged program. -/
theorem C136_history (A : Addr P) (m : StatMap (P.spread N place) Q) (os : List (MultiOp (P.spread N place) Q)) :
    (Shared.multiRun (fun v => A.at_ (place v)) m os).map StatMap.merged =
      StatMap.multiRun A m.merged (os.map MultiOp.merged) := by
  induction os generalizing m with
  | nil => rfl
  | cons o os ih =>
    show Except.map _ (Shared.multiStep (mloc A place) m o >>= _) = StatMap.multiStep A m.merged o.merged >>= _
    rw [← C136_call A m o]
    cases Shared.multiStep (mloc A place) m o with
    | error e => rfl
    | ok m' => exact ih m'

/-- **C136** Reading any map gives what reading it in the merged program gives. -/
theorem C136_reads (A : Addr P) (m : StatMap (P.spread N place) Q) :
    (∀ q s, Shared.get (fun v => A.at_ (place v)) m q s = StatMap.get A m.merged q s.merged) ∧
    (∀ q s, (Shared.remove (fun v => A.at_ (place v)) m q s).map (fun r => (StatMap.merged r.1, r.2)) =
      StatMap.remove A m.merged q s.merged) ∧
    (∀ s, Shared.iter (fun v => A.at_ (place v)) m s = StatMap.iter A m.merged s.merged) ∧
    (∀ [QualifierFlag Q] query s, Shared.queryStat (fun v => A.at_ (place v)) m query s =
      StatMap.queryStat A m.merged query s.merged) ∧
    StatMap.len m = StatMap.len m.merged ∧ StatMap.isEmpty m = StatMap.isEmpty m.merged ∧
    (StatMap.clone m).map StatMap.merged = StatMap.clone m.merged ∧ StatMap.dropAll m = StatMap.dropAll m.merged := by
  refine ⟨fun q s => ?_, fun q s => ?_, fun s => ?_, fun query s => ?_, ?_, ?_, clone_merged m, (dropAll_merged m).symm⟩
  · unfold StatMap.get Shared.get
    rw [find_merged]
    cases Shared.find (mloc A place) m q s with
    | none => rfl
    | some b =>
      show (Buf.read (E := P.spread N place) s.ty b >>= _) = (b.merged.read _ >>= _)
      rw [Buf.read_merged]
  · show Except.map _ (StatMap.readAs s (Shared.pull (mloc A place) m q s).2 >>= _) =
      (StatMap.readAs s.merged (Vec.pull A m.merged q s.merged).2 >>= fun v =>
          .ok ((Vec.pull A m.merged q s.merged).1, v))
    rw [pull_merged]
    cases (Shared.pull (mloc A place) m q s).2 with
    | none => rfl
    | some b =>
      show Except.map _ ((Buf.read (E := P.spread N place) s.ty b >>= _) >>= _) =
        ((b.merged.read s.merged.ty >>= _) >>= _)
      rw [Buf.read_merged]
      show Except.map _ ((Buf.read (E := P.spread N place) s.ty b >>= _) >>= _) =
        ((Buf.read (E := P.spread N place) s.ty b >>= _) >>= _)
      cases Buf.read (E := P.spread N place) s.ty b <;> rfl
  · unfold Shared.iter StatMap.iter
    rw [slice_merged]
    cases Shared.slice (mloc A place) m s with
    | error e => rfl
    | ok l =>
      refine (mapM_merged _ _ (fun e => ?_) l).symm
      show (e.buf.merged.read s.merged.ty >>= _) = (Buf.read (E := P.spread N place) s.ty e.buf >>= _)
      rw [Buf.read_merged]
      rfl
  · have hj : ∀ (l : List (Entry (P.spread N place) Q (Buf (P.spread N place)))) (b : Buf (P.spread N place)),
        StatMap.joinEntries (E := P) (place s.vt) query (l.map Entry.merged) b.merged =
          (StatMap.joinEntries (E := P.spread N place) s.vt query l b).map Buf.merged := by
      intro l
      induction l with
      | nil => intro b; rfl
      | cons e l ih =>
        intro b
        show (if e.qual.qualifiesAs query then _ else _) = Except.map _ (if e.qual.qualifiesAs query then _ else _)
        split
        · show (vtJoin (place s.vt) b.merged e.buf.merged >>= _) =
            Except.map _ (vtJoin (E := P.spread N place) s.vt b e.buf >>= _)
          rw [← vtJoin_merged]
          cases vtJoin (E := P.spread N place) s.vt b e.buf with
          | error e => rfl
          | ok b' => exact ih b'
        · exact ih b
    show ((Buf.from_ (E := P.spread N place) s.ty _ >>= fun b => .ok (⟨s, b⟩ : Pair _)) >>= fun p =>
        Shared.streamStat (mloc A place) m query p >>= fun p' => p'.value.read s.ty) =
      ((Buf.from_ (E := P) s.merged.ty _ >>= fun b => .ok (⟨s.merged, b⟩ : Pair P)) >>= fun p =>
        StatMap.streamStat A m.merged query p >>= fun p' => p'.value.read s.merged.ty)
    rw [← Buf.from_merged (N := N) (place := place)]
    show ((Buf.from_ (E := P.spread N place) s.ty (P.sv s.merged.ty).default >>= _) >>= _) =
      ((Except.map _ (Buf.from_ (E := P.spread N place) s.ty (P.sv s.merged.ty).default) >>= _) >>= _)
    cases Buf.from_ (E := P.spread N place) s.ty (P.sv s.merged.ty).default with
    | error e => rfl
    | ok b =>
      show ((Shared.slice (mloc A place) m s >>= fun l => StatMap.joinEntries (E := P.spread N place) s.vt query l b >>=
          fun b => .ok (⟨s, b⟩ : Pair _)) >>= fun p' => p'.value.read s.ty) =
        ((Vec.slice A m.merged s.merged >>= fun l => StatMap.joinEntries (E := P) (place s.vt) query l b.merged >>=
          fun b => .ok (⟨s.merged, b⟩ : Pair P)) >>= fun p' => p'.value.read s.merged.ty)
      rw [slice_merged]
      cases Shared.slice (mloc A place) m s with
      | error e => rfl
      | ok l =>
        show ((StatMap.joinEntries (E := P.spread N place) s.vt query l b >>= _) >>= _) =
          ((StatMap.joinEntries (E := P) (place s.vt) query (l.map Entry.merged) b.merged >>= _) >>= _)
        rw [hj]
        cases StatMap.joinEntries (E := P.spread N place) s.vt query l b with
        | error e => rfl
        | ok b' => exact (Buf.read_merged _ b').symm
  · exact (List.length_map _).symm
  · cases m <;> rfl
end calls

/-- **C136** Every program whose stat types at one address have one value type arises so, and no other does: its stat
types take the places of those of a program in which all have addresses of their own. -/
theorem C136_every (E : Env) (loc : E.S → Nat) :
    Separates loc ↔ ∃ (P : Env) (A : Addr P) (N : StatTypes) (place : N.S → P.S),
      (⟨E, loc⟩ : (E : Env) × (E.S → Nat)) = ⟨P.spread N place, fun v => A.at_ (place v)⟩ := by
  constructor
  · intro hsep
    let P : Env := {
      U := E.U, El := E.El, sv := E.sv, layout := E.layout, opLayout := E.opLayout
      S := {n : Nat // ∃ T, loc T = n}
      valTy := fun n => E.valTy n.2.choose
      statLayout := fun _ => ⟨1, 1⟩
      Sel := fun _ => Nat
      asIndex := fun x => x
      fromIndex := fun _ i => .ok i
      statName := fun _ => ""
      values := fun _ => [] }
    refine ⟨P, ⟨fun n => n.1, fun h => Subtype.ext h⟩, ⟨E.S, E.statLayout, E.Sel, E.asIndex, E.fromIndex, E.statName,
      E.values⟩, fun v => ⟨loc v, v, rfl⟩, ?_⟩
    have hv : E.valTy = fun v => P.valTy ⟨loc v, v, rfl⟩ := by
      funext v
      exact hsep _ _ (Exists.choose_spec (⟨v, rfl⟩ : ∃ T, loc T = loc v)).symm
    have hE : ∀ f : E.S → E.U, E.valTy = f →
        (⟨E, loc⟩ : (E : Env) × (E.S → Nat)) = ⟨{ E with valTy := f }, loc⟩ := by
      rintro _ rfl
      rfl
    exact hE _ hv
  · rintro ⟨P, A, N, place, h⟩
    cases h
    intro S T h
    exact congrArg P.valTy (A.inj h)


section safety
variable {Q : Type} [DecidableEq Q] [Ord Q] [Std.TransOrd Q] [Std.LawfulEqOrd Q]

/-- **C136** So a map is a multimap of the merged program, whatever was put into it, in bulk or one by one. -/
theorem C136_multimap {P : Env} {N : StatTypes} {place : N.S → P.S} (A : Addr P)
    (h : List (MultiOp (P.spread N place) Q)) :
    match Shared.multiRun (fun v => A.at_ (place v)) [] h with
    | .ok m => ∃ b, Bag.Run 0 (h.map MultiOp.merged) b ∧ b.Seen A m.merged
    | .error e => ∃ pre o post b, h.map MultiOp.merged = pre ++ o :: post ∧ Bag.Run 0 pre b ∧ Bag.MultiFails b e o := by
  have h1 := C136_history A [] h
  have h2 := C74_multimap A (h.map MultiOp.merged)
  rw [show StatMap.multiRun A [] (h.map MultiOp.merged) = _ from h1.symm] at h2
  cases hm : Shared.multiRun (fun v => A.at_ (place v)) [] h with
  | ok m => rw [hm] at h2; exact h2
  | error e => rw [hm] at h2; exact h2

/-- **C136** No history of calls, bulk calls included, reaches undefined behaviour through the map, nor does reading or
dropping it afterwards, if stat types at one address have one value type. -/
theorem C136_safe {E : Env} {loc : E.S → Nat} (hE : E.NoUb) (hsep : Separates loc) (h : List (MultiOp E Q))
    (hh : ∀ o, .one o ∈ h → o.NoUb) :
    Shared.multiRun loc [] h ≠ .error .ub ∧ ∀ m, Shared.multiRun loc [] h = .ok m →
      StatMap.dropAll m = .ok () ∧ ∀ q s, Shared.get loc m q s ≠ .error .ub ∧ Shared.remove loc m q s ≠ .error .ub ∧
        Shared.iter loc m s ≠ .error .ub := by
  obtain ⟨P, A, N, place, he⟩ := (C136_every E loc).1 hsep
  cases he
  have h1 := C136_history A [] h
  have hP : P.NoUb := ⟨hE.write, hE.join, hE.eval⟩
  have hh' : ∀ o, .one o ∈ h.map MultiOp.merged → o.NoUb := by
    intro o ho
    obtain ⟨x, hx, hxo⟩ := List.mem_map.1 ho
    cases x with
    | extend T l => cases hxo
    | collect T l => cases hxo
    | one x =>
      cases hxo
      have := hh x hx
      cases x <;> exact this
  constructor
  · intro hu
    rw [hu] at h1
    exact C74_no_ub A hP _ hh' h1.symm
  · intro m hm
    rw [hm] at h1
    have hrun : StatMap.multiRun A [] (h.map MultiOp.merged) = .ok m.merged := h1.symm
    obtain ⟨r1, r2, r3, -, -, -, -, r8⟩ := C136_reads A m
    refine ⟨r8.trans (C80_map A _ _ hrun), fun q s => ?_⟩
    have hseen := C74_multimap A (h.map MultiOp.merged)
    rw [hrun] at hseen
    obtain ⟨b, -, hb⟩ := hseen
    refine ⟨?_, ?_, ?_⟩
    · rw [r1]
      by_cases ha : b.Absent ⟨s.merged, q⟩
      · rw [hb.get_absent q _ ha]; intro hc; cases hc
      · obtain ⟨v, -, hv⟩ := hb.get_some q _ ha
        rw [hv]; intro hc; cases hc
    · obtain ⟨_, m', r, -, -, hr, -⟩ := C74_remove A _ _ hrun q s.merged
      intro hc
      have := r2 q s
      rw [hr] at this
      rw [show Shared.remove (fun v => A.at_ (place v)) m q s = _ from hc] at this
      cases this
    · rw [r3]
      obtain ⟨L, hL, -⟩ := hb.iter s.merged
      rw [hL]; intro hc; cases hc

/-- **C136** And only then: the bulk calls add nothing to what memory safety asks of the addresses. -/
theorem C136_safe_iff [Nonempty Q] {E : Env} {loc : E.S → Nat} (hE : E.NoUb)
    (hval : ∀ T, Storable (E.layout (E.valTy T))) :
    Separates loc ↔ ∀ h : List (MultiOp E Q), (∀ o, .one o ∈ h → o.NoUb) → Shared.multiRun loc [] h ≠ .error .ub ∧
      ∀ m, Shared.multiRun loc [] h = .ok m → StatMap.dropAll m ≠ .error .ub ∧
        ∀ q s, Shared.get loc m q s ≠ .error .ub := by
  constructor
  · intro hsep h hh
    obtain ⟨h1, h2⟩ := C136_safe hE hsep h hh
    refine ⟨h1, fun m hm => ⟨?_, fun q s => ((h2 m hm).2 q s).1⟩⟩
    rw [(h2 m hm).1]; intro hc; cases hc
  · intro hno
    refine (C126_iff (Q := Q) hE hval).2 fun h hh => ?_
    have hrun : ∀ (h : List (MapOp E Q)) (m : StatMap E Q),
        Shared.multiRun loc m (h.map MultiOp.one) = Shared.runFrom loc m h := by
      intro h
      induction h with
      | nil => intro m; rfl
      | cons o h ih =>
        intro m
        show (Shared.step loc m o >>= _) = (Shared.step loc m o >>= _)
        cases Shared.step loc m o with
        | error e => rfl
        | ok m' => exact ih m'
    have := hno (h.map MultiOp.one) (by
      intro o ho
      obtain ⟨x, hx, hxo⟩ := List.mem_map.1 ho
      cases hxo
      exact hh _ hx)
    rw [hrun h []] at this
    exact ⟨this.1, fun m hm q s => (this.2 m hm).2 q s⟩
end safety

/-! ### examples -/

/-- a program with one stat type of integer value, and two stat types that take its place -/
abbrev twinTypes : StatTypes := ⟨Bool, fun _ => ⟨1, 1⟩, fun _ => Nat, fun x => x, fun _ i => .ok i, fun _ => "", fun _ => []⟩

/-- items collected for one of the two, and extended by items for the other, with a key that is repeated: all are found
and joined under either -/
example : ∃ m, Shared.multiRun (E := demo.spread twinTypes (fun _ => true)) (Q := BitVec 8) (fun _ => demoAddr.at_ true) []
    [.collect true [(⟨0, 0⟩, 3, ⟨6, 0, 100, 1⟩), (⟨0, 1⟩, 3, ⟨5, 0, 100, 1⟩)],
     .extend false [(⟨0, 1⟩, 3, ⟨20, 0, 100, 1⟩), (⟨0, 0⟩, 4, ⟨9, 0, 100, 1⟩)]] = .ok m ∧ (do
      let x ← Shared.queryStat (fun _ => demoAddr.at_ true) m (.aggregate 1#8) ⟨false, 3⟩
      let y ← Shared.queryStat (fun _ => demoAddr.at_ true) m (.aggregate 0#8) ⟨true, 3⟩
      let z ← Shared.get (fun _ => demoAddr.at_ true) m ⟨0, 0⟩ ⟨true, 4⟩
      .ok (x.addend, y.addend, z.map (·.addend))) = (.ok (31, 6, some 9) : Res (Int × Int × Option Int)) := by
  have hs : ∀ l : StatMap (demo.spread twinTypes (fun _ => true)) (BitVec 8),
      l.Pairwise (fun a b => (Shared.keyCmp (fun _ => demoAddr.at_ true) a b.stat b.qual != .gt) = true) →
      Shared.sorted (fun _ => demoAddr.at_ true) l = l := fun l hl => List.mergeSort_of_pairwise hl
  refine ⟨[⟨⟨true, 3⟩, ⟨0, 0⟩, .val true ⟨6, 0, 100, 1⟩⟩, ⟨⟨true, 3⟩, ⟨0, 1⟩, .val true ⟨5, 0, 100, 1⟩⟩,
    ⟨⟨false, 3⟩, ⟨0, 1⟩, .val true ⟨20, 0, 100, 1⟩⟩, ⟨⟨false, 4⟩, ⟨0, 0⟩, .val true ⟨9, 0, 100, 1⟩⟩], ?_, by decide +kernel⟩
  show (Except.ok (Shared.sorted _ _) >>= fun m => Except.ok (Shared.sorted _ (m ++ _)) >>= fun m => .ok m) = _
  rw [hs _ (by decide +kernel)]
  show Except.ok (Shared.sorted _ _) = _
  rw [hs _ (by decide +kernel)]
  rfl

/-- the demonstration program is one of those `C136_safe_iff` is about -/
example : demo.NoUb ∧ (∀ T, Storable (demo.layout (demo.valTy T))) ∧ Separates (E := demo) demoAddr.at_ ∧
    ¬ Separates (E := demo) (fun _ => 0) := by
  refine ⟨demo_noUb, by decide, fun S T h => congrArg _ (demoAddr.inj h), fun h => ?_⟩
  have := h true false rfl
  simp [demo] at this
end BSQ
