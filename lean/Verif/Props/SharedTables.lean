import Verif.Model.SharedTables
import Verif.Props.Cast
/-!
# C102: what safety needs of the addresses of vtables
-/
namespace BSQ
variable {E : Env}

/-- stat types with one address have one value type -/
def Separates (loc : E.S → Nat) : Prop := ∀ S T : E.S, loc S = loc T → E.valTy S = E.valTy T

/-- With the different addresses of an `Addr` the definitions are those of the rest of the model. -/
theorem C102_addr (A : Addr E) :
    StatInst.eqAt A.at_ = StatInst.eq A ∧ StatInst.cmpAt A.at_ = StatInst.cmp A ∧
    (∀ p T, Pair.castAt A.at_ p T = p.cast A T) ∧
    (∀ p T (x : E.Sel T), Pair.isThenCastAt A.at_ p x = p.isThenCast A x) ∧
    (∀ p T, Pair.intoResultAt A.at_ p T = p.intoResult A T) ∧
    (∀ d s v, Defaults.insertAt A.at_ d s v = Defaults.insert A d s v) ∧
    (∀ d s, Defaults.getAt A.at_ d s = Defaults.get A d s) :=
  ⟨rfl, rfl, fun _ _ => rfl, fun _ _ _ => rfl, fun _ _ => rfl, fun _ _ _ => rfl, fun _ _ => rfl⟩

variable (loc : E.S → Nat)

/-- one type's value is another type's value -/
theorem Buf.get_val_ub (u w : E.U) (x : E.El u) : (Buf.val u x).get w = .error .ub ↔ u ≠ w := by
  by_cases h : u = w
  · subst h; simp [Buf.get]
  · simp [Buf.get, h]

/-- **C102** Exactly when a cast of a pair of the stat type `S` to the stat type `T` misreads the value: both
have one address, `T` fits into a buffer, `from_index` accepts the index, and the value types differ. -/
theorem C102_cast (s : StatInst E) (v : s.Val) (T : E.S) (hf : E.fromIndex T s.index ≠ .error .ub) :
    (Pair.typed s v).castAt loc T = .error .ub ↔
      Storable (E.statLayout T) ∧ loc s.vt = loc T ∧ (∃ x, E.fromIndex T s.index = .ok x) ∧
        E.valTy s.vt ≠ E.valTy T := by
  by_cases hT : Storable (E.statLayout T)
  · by_cases hl : loc s.vt = loc T
    · cases hx : E.fromIndex T s.index with
      | error e =>
        have : e ≠ .ub := fun h => hf (h ▸ hx)
        simp [Pair.castAt, Pair.typed, validate_eq, hT, hl, hx, this]
      | ok x =>
        have := Buf.get_val_ub (E := E) s.ty (E.valTy T) v
        cases hg : (Buf.val s.ty v).get (E.valTy T) with
        | error e =>
          rw [hg] at this
          simp [Pair.castAt, Pair.typed, validate_eq, hT, hl, hx, hg]
          simpa using this
        | ok y =>
          rw [hg] at this
          simp [Pair.castAt, Pair.typed, validate_eq, hT, hl, hx, hg]
          simpa using this
    · simp [Pair.castAt, Pair.typed, validate_eq, hT, hl]
  · simp [Pair.castAt, Pair.typed, validate_eq, hT]

/-- **C102** The same of `is_then_cast`. -/
theorem C102_isThenCast (s : StatInst E) (v : s.Val) (T : E.S) (x : E.Sel T) :
    (Pair.typed s v).isThenCastAt loc x = .error .ub ↔
      Storable (E.statLayout T) ∧ loc s.vt = loc T ∧ s.index = E.asIndex x ∧ E.valTy s.vt ≠ E.valTy T := by
  by_cases hT : Storable (E.statLayout T)
  · by_cases hl : loc s.vt = loc T
    · by_cases hi : s.index = E.asIndex x
      · have := Buf.get_val_ub (E := E) s.ty (E.valTy T) v
        cases hg : (Buf.val s.ty v).get (E.valTy T) with
        | error e =>
          rw [hg] at this
          simp [Pair.isThenCastAt, Pair.typed, validate_eq, hT, hl, hi, hg, StatInst.eqAt, Env.asEntry]
          simpa using this
        | ok y =>
          rw [hg] at this
          simp [Pair.isThenCastAt, Pair.typed, validate_eq, hT, hl, hi, hg, StatInst.eqAt, Env.asEntry]
          simpa using this
      · simp [Pair.isThenCastAt, Pair.typed, validate_eq, hT, hi, StatInst.eqAt, Env.asEntry]
    · simp [Pair.isThenCastAt, Pair.typed, validate_eq, hT, hl, StatInst.eqAt, Env.asEntry]
  · simp [Pair.isThenCastAt, Pair.typed, validate_eq, hT]

/-- **C102** The same of `into_result`. -/
theorem C102_intoResult (s : StatInst E) (v : s.Val) (T : E.S) :
    (Pair.typed s v).intoResultAt loc T = .error .ub ↔
      Storable (E.statLayout T) ∧ loc s.vt = loc T ∧ Storable (E.layout (E.valTy T)) ∧
        E.valTy s.vt ≠ E.valTy T := by
  by_cases hT : Storable (E.statLayout T)
  · by_cases hl : loc s.vt = loc T
    · by_cases hV : Storable (E.layout (E.valTy T))
      · have := Buf.get_val_ub (E := E) s.ty (E.valTy T) v
        cases hg : (Buf.val s.ty v).get (E.valTy T) with
        | error e =>
          rw [hg] at this
          simp [Pair.intoResultAt, Pair.typed, Buf.read, validate_eq, hT, hl, hV, hg]
          simpa using this
        | ok y =>
          rw [hg] at this
          simp [Pair.intoResultAt, Pair.typed, Buf.read, validate_eq, hT, hl, hV, hg]
          simpa using this
      · simp [Pair.intoResultAt, Pair.typed, Buf.read, validate_eq, hT, hl, hV]
    · simp [Pair.intoResultAt, Pair.typed, validate_eq, hT, hl]
  · simp [Pair.intoResultAt, Pair.typed, validate_eq, hT]

/-- every entry of a registry holds a value of the type of its stat -/
private def TypedEntries (d : Defaults E) : Prop := ∀ x ∈ d, ∃ v : x.1.Val, x.2 = Buf.val x.1.ty v

private theorem eqAt_loc {a b : StatInst E} (h : a.eqAt loc b = true) : loc a.vt = loc b.vt := by
  simp only [StatInst.eqAt, Bool.and_eq_true, beq_iff_eq] at h
  exact h.2

private theorem insertAt_typed (hs : Separates loc) {d d' : Defaults E} (hd : TypedEntries d) (s : StatInst E)
    (v : s.Val) (h : Defaults.insertAt loc d s v = .ok d') : TypedEntries d' := by
  simp only [Defaults.insertAt, Buf.from_, Res.bind_eq_ok] at h
  obtain ⟨b, hb, h⟩ := h
  obtain ⟨_, _, hb⟩ := hb
  cases hb
  cases h
  unfold HMap.insert
  split
  · intro x hx
    simp only [HMap.set, List.mem_map] at hx
    obtain ⟨y, hy, rfl⟩ := hx
    by_cases he : StatInst.eqAt loc y.1 s = true
    · rw [if_pos he]
      have ht : s.ty = y.1.ty := (hs _ _ (eqAt_loc loc he)).symm
      have hr : ∀ u, s.ty = u → ∃ w : E.El u, Buf.val s.ty v = Buf.val u w := fun u h => by subst h; exact ⟨v, rfl⟩
      exact hr _ ht
    · rw [if_neg he]
      exact hd y hy
  · intro x hx
    rcases List.mem_append.1 hx with hx | hx
    · exact hd x hx
    · rw [List.mem_singleton] at hx
      subst hx
      exact ⟨v, rfl⟩

private theorem foldlM_typed (hs : Separates loc) (l : List ((s : StatInst E) × s.Val)) :
    ∀ {d d' : Defaults E}, TypedEntries d → l.foldlM (fun d x => Defaults.insertAt loc d x.1 x.2) d = .ok d' →
      TypedEntries d' := by
  induction l with
  | nil => intro d d' hd h; cases h; exact hd
  | cons a l ih =>
    intro d d' hd h
    rw [List.foldlM_cons] at h
    obtain ⟨d1, h1, h2⟩ := (Res.bind_eq_ok ..).1 h
    exact ih (insertAt_typed loc hs hd _ _ h1) h2

/-- **C102** If stat types with one address have one value type, then no cast misreads and no registry filled with
defaults misreads, whatever `from_index` panics at. -/
theorem C102_safe (hs : Separates loc) :
    (∀ (s : StatInst E) (v : s.Val) (T : E.S) (x : E.Sel T), E.fromIndex T s.index ≠ .error .ub →
      (Pair.typed s v).castAt loc T ≠ .error .ub ∧ (Pair.typed s v).isThenCastAt loc x ≠ .error .ub ∧
      (Pair.typed s v).intoResultAt loc T ≠ .error .ub) ∧
    (∀ (l : List ((s : StatInst E) × s.Val)) (d : Defaults E) (s : StatInst E), Defaults.fillAt loc l = .ok d →
      d.getAt loc s ≠ .error .ub) := by
  refine ⟨fun s v T x hf => ⟨?_, ?_, ?_⟩, fun l d s hl hu => ?_⟩
  · rw [Ne, C102_cast loc s v T hf]; exact fun h => h.2.2.2 (hs _ _ h.2.1)
  · rw [Ne, C102_isThenCast]; exact fun h => h.2.2.2 (hs _ _ h.2.1)
  · rw [Ne, C102_intoResult]; exact fun h => h.2.2.2 (hs _ _ h.2.1)
  · have ht : TypedEntries d := foldlM_typed loc hs l (d := []) (fun x hx => nomatch hx) hl
    unfold Defaults.getAt HMap.get at hu
    cases hg : d.find? (fun x => StatInst.eqAt loc x.1 s) with
    | none => rw [hg] at hu; cases hu
    | some x =>
      rw [hg] at hu
      obtain ⟨v, hv⟩ := ht x (List.mem_of_find?_eq_some hg)
      have he := List.find?_some hg
      simp only [Option.map_some, hv, Buf.read, validate_eq] at hu
      split at hu
      · exact (Buf.get_val_ub _ _ _).1 hu (hs _ _ (eqAt_loc loc he))
      · cases hu

/-- **C102** And that much is needed: with a stat type `S` and a stat `y` of a storable stat type at one address
but with different value types, storable ones, a pair or a registered default of `S` is misread. -/
theorem C102_needed {S T : E.S} (h : loc S = loc T) (hv : E.valTy S ≠ E.valTy T) (y : E.Sel T)
    (hT : Storable (E.statLayout T)) (hl : Storable (E.layout (E.valTy T))) (hS : Storable (E.layout (E.valTy S)))
    (v : E.El (E.valTy S)) :
    let s : StatInst E := ⟨S, E.asIndex y⟩
    (Pair.typed s v).isThenCastAt loc y = .error .ub ∧
    (Pair.typed s v).intoResultAt loc T = .error .ub ∧
    (∃ d, Defaults.fillAt loc [⟨s, v⟩] = .ok d ∧ d.getAt loc (E.asEntry y) = .error .ub) := by
  refine ⟨(C102_isThenCast loc ⟨S, E.asIndex y⟩ v T y).2 ⟨hT, h, rfl, hv⟩,
    (C102_intoResult loc ⟨S, E.asIndex y⟩ v T).2 ⟨hT, h, hl, hv⟩,
    [(⟨S, E.asIndex y⟩, Buf.val (E.valTy S) v)], ?_, ?_⟩
  · simp [Defaults.fillAt, Defaults.insertAt, Buf.from_, validate_eq, hS, HMap.insert, HMap.get]
  · have : StatInst.eqAt loc ⟨S, E.asIndex y⟩ (E.asEntry y) = true := by simp [StatInst.eqAt, Env.asEntry, h]
    simp only [Defaults.getAt, HMap.get, List.find?_cons, this, Option.map_some, Buf.read, validate_eq]
    have : Storable (E.layout (StatInst.ty (E.asEntry y))) := hl
    simp only [this, if_true, Res.bind_ok]
    exact (Buf.get_val_ub _ _ _).2 hv

/-- **C102** So over a program all of whose types are storable and all of whose stat types have a stat that is
found again from its index: no cast and no registry misreads iff stat types with one address have one value type. -/
theorem C102_iff (hstat : ∀ T, Storable (E.statLayout T)) (hval : ∀ T, Storable (E.layout (E.valTy T)))
    (hone : ∀ T, Nonempty (E.Sel T)) (hf : ∀ T i, E.fromIndex T i ≠ .error .ub) :
    Separates loc ↔
      (∀ (s : StatInst E) (v : s.Val) (T : E.S) (x : E.Sel T),
        (Pair.typed s v).castAt loc T ≠ .error .ub ∧ (Pair.typed s v).isThenCastAt loc x ≠ .error .ub ∧
        (Pair.typed s v).intoResultAt loc T ≠ .error .ub) ∧
      (∀ (l : List ((s : StatInst E) × s.Val)) (d : Defaults E) (s : StatInst E), Defaults.fillAt loc l = .ok d →
        d.getAt loc s ≠ .error .ub) := by
  constructor
  · intro h
    exact ⟨fun s v T x => (C102_safe loc h).1 s v T x (hf _ _), (C102_safe loc h).2⟩
  · rintro ⟨h, -⟩ S T hl
    by_contra hv
    obtain ⟨y⟩ := hone T
    exact (h ⟨S, E.asIndex y⟩ (E.sv (E.valTy S)).default T y).2.1
      (C102_needed loc hl hv y (hstat T) (hval T) (hval S) _).1

/-- Different addresses separate. -/
theorem C102_addr_separates (A : Addr E) : Separates A.at_ := fun _ _ h => congrArg E.valTy (A.inj h)

/-- the demo program meets what `C102_iff` asks; both vtables at one address do not separate its value types -/
example : (∀ T, Storable (demo.statLayout T)) ∧ (∀ T, Storable (demo.layout (demo.valTy T))) ∧
    (∀ T, Nonempty (demo.Sel T)) ∧ (∀ T i, demo.fromIndex T i ≠ .error .ub) ∧
    ¬ Separates (E := demo) (fun _ => 0) ∧ Separates demoAddr.at_ := by
  refine ⟨fun T => ?_, fun T => ?_, fun _ => ⟨(0 : Nat)⟩, (fun _ _ h => by cases h), fun h => ?_, C102_addr_separates _⟩
  · simp [Storable]
  · cases T <;> simp [Storable]
  · exact absurd (h true false rfl) (by simp)

/-- an integer registered as a default is read as a flag set -/
example : ∃ d, Defaults.fillAt (E := demo) (fun _ => 0) [⟨demoInt 3, (statInt ⟨.i32, .prim, .debug⟩).default⟩] = .ok d ∧
    d.getAt (fun _ => 0) (demoFlag 3) = .error .ub :=
  (C102_needed (E := demo) (fun _ => 0) (S := true) (T := false) rfl (by simp) (3 : Nat)
    (by simp [Storable]) (by simp [Storable]) (by simp [Storable]) _).2.2

end BSQ
