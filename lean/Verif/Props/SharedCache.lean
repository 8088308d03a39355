import Verif.Spec.SharedCache
import Verif.Proofs.HMap
import Verif.Props.SharedMap
import Verif.Props.CacheMap
/-! # C127: the cache and the defaults when vtables may share an address -/
set_option linter.unusedSectionVars false
namespace BSQ

/-- `HashMap::insert` with keys compared by any equivalence -/
theorem HMap.get_insert_equiv {K B : Type} {eq : K → K → Bool} (hsymm : ∀ a b, eq a b = true → eq b a = true)
    (htrans : ∀ a b c, eq a b = true → eq b c = true → eq a c = true) (m : HMap K B) (k j : K) (b : B) :
    HMap.get eq (HMap.insert eq m k b).1 j = if eq k j = true then some b else HMap.get eq m j := by
  have hset : ∀ m : HMap K B, HMap.get eq (HMap.set eq m k b) j =
      if eq k j = true then (HMap.get eq m k).map (fun _ => b) else HMap.get eq m j := by
    intro m
    induction m with
    | nil => simp [HMap.get, HMap.set]
    | cons x m ih =>
      simp only [HMap.get, HMap.set, List.map_cons, List.find?_cons] at ih ⊢
      by_cases hxk : eq x.1 k = true
      · simp only [hxk, if_true]
        by_cases hkj : eq k j = true
        · simp [hkj, htrans _ _ _ hxk hkj]
        · have hxj : eq x.1 j = false := by
            cases h : eq x.1 j with
            | false => rfl
            | true => exact absurd (htrans _ _ _ (hsymm _ _ hxk) h) hkj
          simp only [hkj, hxj] at ih ⊢
          exact ih
      · simp only [hxk]
        by_cases hxj : eq x.1 j = true
        · have hkj : ¬ eq k j = true := fun h => hxk (htrans _ _ _ hxj (hsymm _ _ h))
          simp [hxj, hkj]
        · have hxk' : eq x.1 k = false := by simpa using hxk
          have hxj' : eq x.1 j = false := by simpa using hxj
          simp only [hxj', Bool.false_eq_true, if_false]
          exact ih
  unfold HMap.insert
  cases hg : HMap.get eq m k with
  | some old =>
    simp only
    rw [hset, hg]
    rfl
  | none =>
    simp only [HMap.get, List.find?_append, List.find?_cons, List.find?_nil] at hg ⊢
    by_cases hkj : eq k j = true
    · simp only [hkj, if_true]
      have : m.find? (fun x => eq x.1 j) = none := by
        rw [List.find?_eq_none]
        intro x hx h
        have hk : m.find? (fun x => eq x.1 k) = none := by
          cases h' : m.find? (fun x => eq x.1 k) with
          | none => rfl
          | some y => rw [h'] at hg; cases hg
        exact (List.find?_eq_none.1 hk) x hx (htrans _ _ _ h (hsymm _ _ hkj))
      simp [this]
    · simp [hkj]

variable {E : Env} {Q Ent : Type} [DecidableEq Q] [DecidableEq Ent] {loc : E.S → Nat}

theorem StatInst.eqAt_iff {a b : StatInst E} : a.eqAt loc b = true ↔ SameStat loc a b := by
  simp only [StatInst.eqAt, Bool.and_eq_true, beq_iff_eq, SameStat]
  exact ⟨fun h => ⟨h.2, h.1⟩, fun h => ⟨h.2, h.1⟩⟩

theorem SameStat.symm {a b : StatInst E} (h : SameStat loc a b) : SameStat loc b a := ⟨h.1.symm, h.2.symm⟩
theorem SameStat.trans {a b c : StatInst E} (h : SameStat loc a b) (h' : SameStat loc b c) : SameStat loc a c :=
  ⟨h.1.trans h'.1, h.2.trans h'.2⟩

theorem CacheKey.eqAt_iff {a b : CacheKey E Q Ent} : CacheKey.eqAt loc a b = true ↔ SameEntry loc a b := by
  simp only [CacheKey.eqAt, Bool.and_eq_true, decide_eq_true_eq, SameEntry, StatInst.eqAt_iff, and_assoc]

theorem CacheKey.get_insertAt (c : Cache E Q Ent) (k j : CacheKey E Q Ent) (b : Buf E) :
    HMap.get (CacheKey.eqAt loc) (HMap.insert (CacheKey.eqAt loc) c k b).1 j =
      if SameEntry loc k j then some b else HMap.get (CacheKey.eqAt loc) c j := by
  rw [HMap.get_insert_equiv]
  · simp only [CacheKey.eqAt_iff]
  · intro a b h
    rw [CacheKey.eqAt_iff] at h ⊢
    exact ⟨h.1.symm, h.2.1.symm, h.2.2.symm⟩
  · intro a b c h h'
    rw [CacheKey.eqAt_iff] at h h' ⊢
    exact ⟨h.1.trans h'.1, h.2.1.trans h'.2.1, h.2.2.trans h'.2.2⟩

theorem StatInst.get_insertAt (c : Defaults E) (k j : StatInst E) (b : Buf E) :
    HMap.get (StatInst.eqAt loc) (HMap.insert (StatInst.eqAt loc) c k b).1 j =
      if SameStat loc k j then some b else HMap.get (StatInst.eqAt loc) c j := by
  rw [HMap.get_insert_equiv]
  · simp only [StatInst.eqAt_iff]
  · intro a b h
    rw [StatInst.eqAt_iff] at h ⊢
    exact h.symm
  · intro a b c h h'
    rw [StatInst.eqAt_iff] at h h' ⊢
    exact h.trans h'

/-- With the different addresses of an `Addr` the definitions are those of the rest of the model. -/
theorem C127_addr (A : Addr E) :
    (∀ (c : Cache E Q Ent) e q p, Cache.cachePairAt A.at_ c e q p = Cache.cachePair A c e q p) ∧
    (∀ (c : Cache E Q Ent) e q s, Cache.tryGetAt A.at_ c e q s = Cache.tryGet A c e q s) ∧
    (∀ (ops : List (CacheOp E Q Ent)) c, CacheOp.runAt A.at_ ops c = CacheOp.run A ops c) := by
  refine ⟨fun _ _ _ _ => rfl, fun _ _ _ _ => rfl, fun ops => ?_⟩
  induction ops with
  | nil => intro c; rfl
  | cons o os ih =>
    intro c
    have : o.applyAt A.at_ c = o.apply A c := by cases o <;> rfl
    simp only [CacheOp.runAt, CacheOp.run, this, ih]

/-- entries hold storable values of the type of their stat -/
def TypedCache (c : Cache E Q Ent) : Prop :=
  ∀ x ∈ c, ∃ v : x.1.stat.Val, x.2 = .val x.1.stat.ty v ∧ Storable (E.layout x.1.stat.ty)

theorem TypedCache.clear {c : Cache E Q Ent} (h : TypedCache c) : Cache.clear c = .ok [] := by
  have : Cache.dropAll c = .ok () := by
    induction c with
    | nil => rfl
    | cons x c ih =>
      obtain ⟨k, b⟩ := x
      obtain ⟨v, hv, hs⟩ := h (k, b) (by simp)
      simp only at v hv hs
      unfold Cache.dropAll
      rw [hv, vtDrop_val hs]
      exact ih (fun y hy => h y (by simp [hy]))
  unfold Cache.clear
  rw [this]
  rfl

theorem TypedCache.insert (hsep : Separates loc) {c : Cache E Q Ent} (h : TypedCache c) (e : Ent)
    (q : QualifierQuery Q) (s : StatInst E) (v : s.Val) (hs : Storable (E.layout s.ty)) :
    TypedCache (HMap.insert (CacheKey.eqAt loc) c ⟨e, q, s⟩ (.val s.ty v)).1 := by
  unfold HMap.insert
  split
  · intro x hx
    simp only [HMap.set, List.mem_map] at hx
    obtain ⟨y, hy, rfl⟩ := hx
    by_cases he : CacheKey.eqAt loc y.1 ⟨e, q, s⟩ = true
    · rw [if_pos he]
      have ht : s.ty = y.1.stat.ty := (hsep _ _ (CacheKey.eqAt_iff.1 he).2.2.1).symm
      have hr : ∀ u, s.ty = u → ∃ w : E.El u, Buf.val s.ty v = Buf.val u w ∧ Storable (E.layout u) :=
        fun u h => by subst h; exact ⟨v, rfl, hs⟩
      exact hr _ ht
    · rw [if_neg he]
      exact h y hy
  · intro x hx
    rcases List.mem_append.1 hx with hx | hx
    · exact h x hx
    · rw [List.mem_singleton] at hx
      subst hx
      exact ⟨v, rfl, hs⟩

/-- a call on a cache that remembers `found` -/
theorem CacheOp.applyAt_ok (hsep : Separates loc) (o : CacheOp E Q Ent) {c : Cache E Q Ent}
    (hc : TypedCache c) : o.Fits →
    ∃ c', o.applyAt loc c = .ok c' ∧ TypedCache c' ∧ ∀ k : CacheKey E Q Ent, ∀ found : Option k.stat.Val,
      HMap.get (CacheKey.eqAt loc) c k = found.map (Buf.val k.stat.ty) →
      HMap.get (CacheKey.eqAt loc) c' k = (match o with
        | .store e q s v => if SameEntry loc ⟨e, q, s⟩ k then E.seen k.stat.ty v else found
        | .clear => none : Option k.stat.Val).map (Buf.val k.stat.ty) := by
  cases o with
  | clear => exact fun _ => ⟨[], hc.clear, (fun x hx => nomatch hx), fun k found hf => rfl⟩
  | store e q s v =>
    intro ho
    have hs : Storable (E.layout s.ty) := ho
    refine ⟨_, ?_, hc.insert hsep e q s v hs, fun k found hf => ?_⟩
    · simp only [CacheOp.applyAt, Pair.new, Buf.from_eq, if_pos hs, Res.bind_ok, Cache.cachePairAt, Pair.cloneBuffer]
      rw [show vtClone s.vt (.val s.ty v : Buf E) = .ok (.val s.ty v) from vtClone_val hs v]
      rfl
    · rw [CacheKey.get_insertAt]
      simp only
      by_cases hk : SameEntry loc ⟨e, q, s⟩ k
      · rw [if_pos hk, if_pos hk, Shared.seen_buf (hsep _ _ hk.2.2.1)]
      · rw [if_neg hk, if_neg hk, hf]

/-- **C127** If stat types with one address have one value type, then whatever is done to a cache, a lookup finds the
value stored last, since the last `clear`, for this entity and query and any stat that cannot be told apart. -/
theorem C127_recall (hsep : Separates loc) (ops : List (CacheOp E Q Ent)) (hs : ∀ o ∈ ops, o.Fits) :
    ∃ c, CacheOp.runAt loc ops [] = .ok c ∧ Cache.clear c = .ok [] ∧
      ∀ e q s, Cache.tryGetAt loc c e q s = .ok ((CacheOp.recallAt loc ⟨e, q, s⟩ ops).map (Buf.val s.ty)) := by
  have key : ∀ (ops : List (CacheOp E Q Ent)) (c : Cache E Q Ent), (∀ o ∈ ops, o.Fits) → TypedCache c →
      ∃ c', CacheOp.runAt loc ops c = .ok c' ∧ TypedCache c' ∧ ∀ k : CacheKey E Q Ent, ∀ found : Option k.stat.Val,
        HMap.get (CacheKey.eqAt loc) c k = found.map (Buf.val k.stat.ty) →
        HMap.get (CacheKey.eqAt loc) c' k = (ops.foldl (fun found o => match o with
          | .store e q s v => if SameEntry loc ⟨e, q, s⟩ k then E.seen k.stat.ty v else found
          | .clear => none) found).map (Buf.val k.stat.ty) := by
    intro ops
    induction ops with
    | nil => intro c _ hc; exact ⟨c, rfl, hc, fun k found hf => hf⟩
    | cons o os ih =>
      intro c hs hc
      obtain ⟨c1, h1, h2, h3⟩ := CacheOp.applyAt_ok hsep o hc (hs o (by simp))
      obtain ⟨c2, h4, h5, h6⟩ := ih c1 (fun o ho => hs o (by simp [ho])) h2
      refine ⟨c2, ?_, h5, fun k found hf => ?_⟩
      · simp only [CacheOp.runAt, h1, Res.bind_ok, h4]
      · rw [List.foldl_cons]
        exact h6 k _ (h3 k found hf)
  obtain ⟨c, h1, h2, h3⟩ := key ops [] hs (fun x hx => by cases hx)
  refine ⟨c, h1, h2.clear, fun e q s => ?_⟩
  have h4 := h3 ⟨e, q, s⟩ none rfl
  have h5 : HMap.get (CacheKey.eqAt loc) c ⟨e, q, s⟩ = (CacheOp.recallAt loc ⟨e, q, s⟩ ops).map (Buf.val s.ty) := h4
  unfold Cache.tryGetAt
  cases hr : CacheOp.recallAt loc ⟨e, q, s⟩ ops with
  | none => rw [h5, hr]; rfl
  | some v =>
    rw [h5, hr]
    have hst : Storable (E.layout s.ty) := by
      rw [hr] at h5
      unfold HMap.get at h5
      obtain ⟨x, hx, hb⟩ := Option.map_eq_some_iff.1 h5
      obtain ⟨w, _, hw⟩ := h2 x (List.mem_of_find?_eq_some hx)
      have hx' := List.find?_some hx
      have he := CacheKey.eqAt_iff.1 hx'
      have : x.1.stat.ty = s.ty := hsep _ _ he.2.2.1
      rw [← this]; exact hw
    simp only [Option.map_some, Defaults.cloned]
    rw [show vtClone s.vt (.val s.ty v : Buf E) = .ok (.val s.ty v) from vtClone_val hst v]
    rfl

/-- one value stored for one stat and looked up for another at the same address -/
theorem tryGet_stored {S T : E.S} (hloc : loc S = loc T) (hS : Storable (E.layout (E.valTy S))) (e : Ent)
    (q : QualifierQuery Q) (i : Nat) (v : E.El (E.valTy S)) :
    ∃ c, CacheOp.runAt loc [.store e q ⟨S, i⟩ v] [] = .ok c ∧
      Cache.tryGetAt loc c e q ⟨T, i⟩ = Defaults.cloned ⟨T, i⟩ (some (.val (E.valTy S) v)) := by
  refine ⟨[(⟨e, q, ⟨S, i⟩⟩, .val (E.valTy S) v)], ?_, ?_⟩
  · simp only [CacheOp.runAt, CacheOp.applyAt, Pair.new, Buf.from_eq, StatInst.ty, if_pos hS, Res.bind_ok,
      Cache.cachePairAt, Pair.cloneBuffer]
    rw [vtClone_val hS v]
    rfl
  · unfold Cache.tryGetAt
    congr 1
    have : CacheKey.eqAt loc (⟨e, q, ⟨S, i⟩⟩ : CacheKey E Q Ent) ⟨e, q, ⟨T, i⟩⟩ = true :=
      CacheKey.eqAt_iff.2 ⟨rfl, rfl, hloc, rfl⟩
    simp [HMap.get, this]

/-- **C127** Exactly then is the cache sound. -/
theorem C127_iff [Nonempty Q] [Nonempty Ent] (hval : ∀ T, Storable (E.layout (E.valTy T))) :
    Separates loc ↔ ∀ ops : List (CacheOp E Q Ent), CacheOp.runAt loc ops [] ≠ .error .ub ∧
      ∀ c, CacheOp.runAt loc ops [] = .ok c → ∀ e q s, Cache.tryGetAt loc c e q s ≠ .error .ub := by
  constructor
  · intro hsep ops
    have hf : ∀ o ∈ ops, o.Fits := by
      intro o _
      cases o with
      | store e q s v => exact hval s.vt
      | clear => trivial
    obtain ⟨c, h1, _, h2⟩ := C127_recall hsep ops hf
    refine ⟨(by rw [h1]; intro h; cases h), fun c' hc' e q s => ?_⟩
    rw [h1] at hc'
    cases hc'
    rw [h2]; intro h; cases h
  · intro hno S T hloc
    by_contra hne
    obtain ⟨x⟩ := ‹Nonempty Q›
    obtain ⟨e⟩ := ‹Nonempty Ent›
    obtain ⟨c, h1, h2⟩ := tryGet_stored (Q := Q) (Ent := Ent) hloc (hval S) e (.aggregate x) 0 (E.sv (E.valTy S)).default
    refine (hno _).2 c h1 e (.aggregate x) ⟨T, 0⟩ ?_
    rw [h2]
    simp only [Defaults.cloned, vtClone, Buf.read, validate_eq, if_pos (hval T), Res.bind_ok]
    simp [Buf.get, hne]

/-- **C127** The cache keeps apart the values of different stats if and only if no two stat types share an address. -/
theorem C127_exact [Nonempty Q] [Nonempty Ent] (hval : ∀ T, Storable (E.layout (E.valTy T))) :
    Function.Injective loc ↔ ∀ (ops : List (CacheOp E Q Ent)) c, CacheOp.runAt loc ops [] = .ok c →
      ∀ e q s, Cache.tryGetAt loc c e q s = .ok (CacheOp.recall ⟨e, q, s⟩ ops) := by
  constructor
  · intro hinj ops c hc e q s
    let A : Addr E := ⟨loc, fun h => hinj h⟩
    obtain ⟨_, h2, h3⟩ := C127_addr (Q := Q) (Ent := Ent) A
    have hf : ∀ o ∈ ops, o.Fits := by
      intro o _
      cases o with
      | store e q s v => exact hval s.vt
      | clear => trivial
    obtain ⟨c', h4, h5⟩ := C85_recall (A := A) ops hf
    have h6 : CacheOp.runAt loc ops [] = CacheOp.run A ops [] := h3 ops []
    rw [h6, h4] at hc
    cases hc
    exact (h2 c e q s).trans (h5 e q s)
  · intro hall S T hloc
    by_contra hne
    obtain ⟨x⟩ := ‹Nonempty Q›
    obtain ⟨e⟩ := ‹Nonempty Ent›
    obtain ⟨c, h1, h2⟩ := tryGet_stored (Q := Q) (Ent := Ent) hloc (hval S) e (.aggregate x) 0 (E.sv (E.valTy S)).default
    have := hall _ c h1 e (.aggregate x) ⟨T, 0⟩
    rw [h2] at this
    have hn : CacheOp.recall (⟨e, .aggregate x, ⟨T, 0⟩⟩ : CacheKey E Q Ent)
        [.store e (.aggregate x) ⟨S, 0⟩ (E.sv (E.valTy S)).default] = none := by
      simp [CacheOp.recall, CacheOp.after, hne]
    rw [hn] at this
    simp only [Defaults.cloned] at this
    cases hv : vtClone (StatInst.vt ⟨T, 0⟩) (Buf.val (E.valTy S) (E.sv (E.valTy S)).default) with
    | error e => rw [hv] at this; cases this
    | ok b => rw [hv] at this; cases this

/-- **C127** The registry of defaults: with separated value types `get` gives the default registered last for the
stat or one that cannot be told apart from it, and otherwise the default of the value type. -/
theorem C127_defaults (hsep : Separates loc) (l : List ((s : StatInst E) × s.Val)) (d : Defaults E)
    (hd : Defaults.fillAt loc l = .ok d) (s : StatInst E) :
    Defaults.getAt loc d s = .ok ((lastDefault loc s l).getD s.sv.default) := by
  have key : ∀ (l : List ((s : StatInst E) × s.Val)) (d d' : Defaults E) (found : Option s.Val),
      l.foldlM (fun d x => Defaults.insertAt loc d x.1 x.2) d = .ok d' →
      HMap.get (StatInst.eqAt loc) d s = found.map (Buf.val s.ty) → (found.isSome → Storable (E.layout s.ty)) →
      HMap.get (StatInst.eqAt loc) d' s =
        (l.foldl (fun found x => if SameStat loc x.1 s then E.seen s.ty x.2 else found) found).map (Buf.val s.ty) ∧
      ((l.foldl (fun found x => if SameStat loc x.1 s then E.seen s.ty x.2 else found) found).isSome →
        Storable (E.layout s.ty)) := by
    intro l
    induction l with
    | nil => intro d d' found h hf hs; cases h; exact ⟨hf, hs⟩
    | cons x l ih =>
      intro d d' found h hf hs
      rw [List.foldlM_cons] at h
      obtain ⟨d1, h1, h2⟩ := (Res.bind_eq_ok ..).1 h
      rw [List.foldl_cons]
      unfold Defaults.insertAt at h1
      rw [Buf.from_eq] at h1
      by_cases hx : Storable (E.layout x.1.ty)
      · rw [if_pos hx] at h1
        cases h1
        refine ih _ d' _ h2 ?_ ?_
        · rw [StatInst.get_insertAt]
          by_cases hk : SameStat loc x.1 s
          · rw [if_pos hk, if_pos hk, Shared.seen_buf (hsep _ _ hk.1)]
          · rw [if_neg hk, if_neg hk, hf]
        · by_cases hk : SameStat loc x.1 s
          · intro _
            have : x.1.ty = s.ty := hsep _ _ hk.1
            rw [← this]; exact hx
          · rw [if_neg hk]; exact hs
      · rw [if_neg hx] at h1
        cases h1
  obtain ⟨h1, h2⟩ := key l [] d none hd rfl (by simp)
  unfold Defaults.getAt lastDefault
  rw [h1]
  generalize l.foldl (fun found x => if SameStat loc x.1 s then E.seen s.ty x.2 else found) none = r at h2 ⊢
  cases r with
  | none => rfl
  | some v => exact Buf.read_val (h2 rfl) v

/-! ### examples -/

/-- a value cached for one of two stats at one address is found for the other, a later one replaces it -/
example : (CacheOp.runAt (E := twins) (Q := BitVec 8) (Ent := Nat) (fun _ => 0)
    [.store 1 (.aggregate 0) ⟨true, 3⟩ ⟨5, 0, 100, 1⟩, .store 1 (.aggregate 0) ⟨false, 3⟩ ⟨6, 0, 100, 1⟩] [] >>= fun c => do
      let x ← Cache.tryGetAt (fun _ => 0) c 1 (.aggregate 0) ⟨true, 3⟩
      let y ← Cache.tryGetAt (fun _ => 0) c 1 (.aggregate 0) ⟨true, 4⟩
      .ok (x.isSome, y.isSome, c.length)) = .ok (true, false, 1) := by rfl

/-- so is a default -/
example : (Defaults.fillAt (E := twins) (fun _ => 0) [⟨⟨true, 3⟩, ⟨5, 0, 100, 1⟩⟩, ⟨⟨false, 3⟩, ⟨6, 0, 100, 1⟩⟩] >>= fun d => do
      let x ← Defaults.getAt (fun _ => 0) d ⟨true, 3⟩
      .ok x.addend) = .ok 6 := by rfl

end BSQ
