import Verif.Spec.Cloning
import Verif.Props.Fickle
/-! # `Clone` of values that does not copy: lemmas -/
namespace BSQ
variable {E : Env} {Q Ent α : Type} {A : Addr E} {C : Cloning E} {F : Joined E Q Ent → Prop}

/-! ### registered defaults -/

theorem HMap.get_map {K B B' : Type} (eq : K → K → Bool) (f : B → B') (m : HMap K B) (k : K) :
    HMap.get eq (m.map fun x => (x.1, f x.2)) k = (HMap.get eq m k).map f := by
  unfold HMap.get
  induction m with
  | nil => rfl
  | cons x m ih =>
    simp only [List.map_cons, List.find?_cons]
    cases eq x.1 k with
    | true => rfl
    | false => exact ih

theorem Joined.Safe.cloning {J : Joined E Q Ent} (h : J.Safe A) : (J.cloning C).Safe A where
  globals := h.globals
  streams := h.streams
  relations := h.relations
  attrs := h.attrs
  defaults d hd s b hb := by
    simp only [Joined.cloning, Option.mem_def, Option.map_eq_some_iff] at hd
    obtain ⟨d₀, hd₀, rfl⟩ := hd
    rw [HMap.get_map (StatInst.eq A) (Buf.clonedBy C)] at hb
    obtain ⟨b₀, hb₀, rfl⟩ := Option.map_eq_some_iff.1 hb
    obtain ⟨v, rfl, hs⟩ := h.defaults d₀ hd₀ s b₀ hb₀
    exact ⟨C s.ty v, rfl, hs⟩

theorem Joined.NoStore.cloning {J : Joined E Q Ent} (h : J.NoStore) : (J.cloning C).NoStore :=
  ⟨h.stat, h.relation, h.attr⟩

/-! ### outcomes -/

theorem recloned_carries {O O' : Outcomes E Q Ent} (h : ∀ r, Carries (O r) (O' r)) (r : Req E Q Ent) :
    Carries (O.recloned C r) (O'.recloned C r) := by
  cases r with
  | stat e q s =>
    rintro x hx (hO | ⟨v, hv, rfl⟩)
    · exact .inl (h _ x hx hO)
    · exact .inr ⟨v, h _ _ (by simp) hv, rfl⟩
  | relation a b q s => exact h _
  | attr e a => exact h _

theorem CloneMixed.succ (n : Nat) (r : Req E Q Ent) :
    Carries (CloneMixed A C F n r) (CloneMixed A C F (n + 1) r) := by
  induction n generalizing r with
  | zero => exact fun x hx h => absurd h hx
  | succ n ih => exact fun x hx ⟨J, hJ, h⟩ => ⟨J, hJ, Joined.May.carries (recloned_carries ih) r x hx h⟩

theorem CloneMixed.outGrows (r : Req E Q Ent) : OutGrows (fun n => CloneMixed A C F n r) := by
  intro n m h
  induction h with
  | refl => exact .refl _
  | step _ ih => exact fun x hx h => CloneMixed.succ _ r x hx (ih x hx h)

theorem CloneMixed.recloned_outGrows (r : Req E Q Ent) :
    OutGrows (fun n => (CloneMixed A C F n).recloned C r) :=
  fun n m h => recloned_carries (fun r => CloneMixed.outGrows r n m h) r

theorem Outcomes.recloned_of {O : Outcomes E Q Ent} {r : Req E Q Ent} {x : Res r.Resp} (h : O r x) :
    O.recloned C r x := by
  cases r with
  | stat e q s => exact .inl h
  | relation a b q s => exact h
  | attr e a => exact h

/-! ### code -/

/-- what is handed to the cache: something computed -/
def ClonePut (A : Addr E) (C : Cloning E) (F : Joined E Q Ent → Prop) (k : CacheKey E Q Ent) (b : Buf E) : Prop :=
  ∃ v : k.stat.Val, b = .val k.stat.ty v ∧ Storable (E.layout k.stat.ty) ∧
    ∃ m, CloneMixed A C F m (.stat k.entity k.query k.stat) (.ok (some v))

/-- what comes from the cache: the clone of a clone of something computed -/
def CloneGet (A : Addr E) (C : Cloning E) (F : Joined E Q Ent → Prop) (k : CacheKey E Q Ent) (o : Option (Buf E)) :
    Prop :=
  ∀ b, o = some b → ∃ v : k.stat.Val, b = .val k.stat.ty (C k.stat.ty (C k.stat.ty v)) ∧
    Storable (E.layout k.stat.ty) ∧ ∃ m, CloneMixed A C F m (.stat k.entity k.query k.stat) (.ok (some v))

theorem Ev.shiftC {r : Req E Q Ent} {J : Joined E Q Ent} (hF : F J) {x : Res r.Resp}
    (h : Ev (fun m => (J.cloning C).May A ((CloneMixed A C F m).recloned C) r) x) :
    Ev (fun m => (CloneMixed A C F m).recloned C r) x :=
  fun hne => (h hne).elim fun m hm => ⟨m + 1, Outcomes.recloned_of ⟨J, hF, hm⟩⟩

theorem Joined.Becomes.goodC (hs : ∀ J, F J → J.Safe A) (hn : ∀ J, F J → J.NoStore) {J₀ : Joined E Q Ent} (hJ : F J₀)
    {H : Codes E Q Ent}
    (hH : ∀ r c, H r c → CProg.Good (CloneGet A C F) (ClonePut A C F)
      (Ev fun m => (CloneMixed A C F m).recloned C r) c)
    (r : Req E Q Ent) (c : CProg E Q Ent r.Resp) (h : (J₀.cloning C).Becomes A H r c) :
    CProg.Good (CloneGet A C F) (ClonePut A C F) (Ev fun m => (CloneMixed A C F m).recloned C r) c := by
  have hO : ∀ r, OutGrows (fun n => (CloneMixed A C F n).recloned C r) := fun r => CloneMixed.recloned_outGrows r
  have hsJ : (J₀.cloning C).Safe A := (hs J₀ hJ).cloning
  have hnJ : (J₀.cloning C).NoStore := Joined.NoStore.cloning (hn J₀ hJ)
  have hM : ∀ {m r x}, (J₀.cloning C).May A ((CloneMixed A C F m).recloned C) r x → CloneMixed A C F (m + 1) r x :=
    fun h => ⟨J₀, hJ, h⟩
  have hsh : ∀ {r : Req E Q Ent} {x : Res r.Resp},
      Ev (fun m => (J₀.cloning C).May A ((CloneMixed A C F m).recloned C) r) x →
      Ev (fun m => (CloneMixed A C F m).recloned C r) x := fun h => Ev.shiftC hJ h
  revert h hM hsh
  generalize J₀.cloning C = J at *
  intro h hM hsh
  cases r with
  | stat e q s =>
    obtain ⟨g, hg, rfl⟩ := h
    by_cases hst : Storable (E.layout s.ty)
    swap
    · refine CProg.Good.mono (P := Ev (fun m => J.May A ((CloneMixed A C F m).recloned C) (.stat e q s))) ?_
        (fun _ => hsh)
      unfold Joined.statCode
      rw [validate_eq, if_neg hst]
      exact fun _ => ⟨0, .inr ⟨.panic, by rw [validate_eq, if_neg hst], rfl⟩⟩
    unfold Joined.statCode
    rw [validate_eq, if_pos hst, CProg.lift_ok, CProg.bind_ret]
    cases he : J.world.isStat e with
    | false =>
      refine fun _ => ⟨1, .inl (hM (m := 0) (.inl ⟨(), by rw [validate_eq, if_pos hst], ?_⟩))⟩
      simp only [he]
      rfl
    | true =>
      have hmiss : CProg.Good (CloneGet A C F) (ClonePut A C F)
          (Ev fun m => (CloneMixed A C F m).recloned C (.stat e q s))
          ((CProg.lift (J.world.startValue A s)).bind fun v => (g v).bind fun p =>
            (J.remember e q p).bind fun _ => CProg.lift (StatMap.readAs s (some p.value))) := by
        obtain ⟨v0, hv0⟩ := hsJ.startValue s hst
        rw [hv0, CProg.lift_ok, CProg.bind_ret]
        refine CProg.Good.bind (CallsBecome.good (G := CloneGet A C F) (P := ClonePut A C F) hO hH
          (hnJ.stat e q) (hg (.val s.ty v0))) (fun p hp => ?_) (fun x hx hne => ?_)
        · obtain ⟨m, hm⟩ := hp (by simp)
          have h2 := CallsMay.safe (X := fun _ => True) (fun _ _ => trivial) (fun _ _ _ => trivial)
            (hsJ.statCalls e q) (p := ⟨s, .val s.ty v0⟩) ⟨v0, rfl⟩ hm
          obtain ⟨s', b⟩ := p
          obtain ⟨h3, v, hv⟩ := h2
          change s' = s at h3
          subst h3
          change s'.Val at v
          change b = .val s'.ty v at hv
          subst hv
          have key : CloneMixed A C F (m + 1) (.stat e q s') (.ok (some v)) := by
            refine hM (.inl ⟨(), by rw [validate_eq, if_pos hst], ?_⟩)
            simp only [he, if_true]
            exact .inl ⟨_, hv0.symm, .inl ⟨_, hm, .inl ⟨v, (Buf.read_val hst _).symm, rfl⟩⟩⟩
          change CProg.Good _ _ _ ((J.remember e q ⟨s', .val s'.ty v⟩).bind fun _ =>
            CProg.lift (StatMap.readAs s' (some (.val s'.ty v))))
          rw [Joined.remember_eq hst, readAs_val hst]
          cases J.world.cached with
          | false => exact fun _ => ⟨m + 1, .inl key⟩
          | true => exact ⟨⟨v, rfl, hst, m + 1, key⟩, fun _ => ⟨m + 1, .inl key⟩⟩
        · obtain ⟨m, hm⟩ := hx (by simpa using hne)
          refine ⟨m + 1, .inl (hM (.inl ⟨(), by rw [validate_eq, if_pos hst], ?_⟩))⟩
          simp only [he, if_true]
          exact .inl ⟨_, hv0.symm, .inr ⟨x, hm, rfl⟩⟩
      simp only [if_true, CProg.bind_assoc]
      unfold Joined.lookup
      cases J.world.cached with
      | false =>
        simp only [Bool.false_eq_true, if_false, CProg.bind_ret, CProg.bind_assoc]
        exact hmiss
      | true =>
        simp only [if_true, CProg.bind_get]
        intro o ho
        cases o with
        | none =>
          simp only [Defaults.cloned, CProg.lift_ok, CProg.bind_ret, CProg.bind_assoc]
          exact hmiss
        | some b =>
          obtain ⟨v, rfl, -, m, hm⟩ := ho b rfl
          change s.Val at v
          have hc : Defaults.cloned s (some (.val s.ty (C s.ty (C s.ty v)))) =
              .ok (some (.val s.ty (C s.ty (C s.ty v)))) := by
            simp [Defaults.cloned, vtClone_val hst]
          simp only [hc, CProg.lift_ok, CProg.bind_ret, readAs_val hst]
          exact fun _ => ⟨m, .inr ⟨v, hm, rfl⟩⟩
  | relation a b q s =>
    obtain ⟨g, hg, rfl⟩ := h
    refine CProg.Good.mono (P := Ev (fun m => J.May A ((CloneMixed A C F m).recloned C) (.relation a b q s))) ?_
      (fun _ => hsh)
    unfold Joined.relationCode
    refine Ev.bind (M := fun _ y => y = validate (E.layout s.ty)) (Ev.lift _) (OutGrows.const _) (fun _ => ?_)
      fun _ _ => ?_
    · cases J.world.isStat a && J.world.isStat b with
      | false => exact OutGrows.const _
      | true =>
        simp only [if_true]
        exact OutGrows.then (OutGrows.const _) fun v => OutGrows.then (OutGrows.calls hO _ _) fun _ => OutGrows.const _
    · cases J.world.isStat a && J.world.isStat b with
      | false => exact fun _ => ⟨0, rfl⟩
      | true =>
        simp only [if_true, CProg.bind_assoc, CProg.bind_ret]
        refine Ev.bind (M := fun _ y => y = J.world.startValue A s) (Ev.lift _) (OutGrows.const _)
          (fun v => OutGrows.then (OutGrows.calls hO _ _) fun _ => OutGrows.const _) fun v _ => ?_
        refine Ev.bind (CallsBecome.good hO hH (hnJ.relation a b q) (hg v)) (OutGrows.calls hO _ _)
          (fun _ => OutGrows.const _) fun p _ => ?_
        refine CProg.Good.lift fun _ => ⟨0, ?_⟩
        change Then (· = p.value.read s.ty) (fun x => (· = .ok (some x))) (p.value.read s.ty >>= fun x => .ok (some x))
        cases hr : p.value.read s.ty with
        | ok x => exact .inl ⟨x, rfl, rfl⟩
        | error x => exact .inr ⟨x, rfl, rfl⟩
  | attr e a =>
    refine CProg.Good.mono (P := Ev (fun m => J.May A ((CloneMixed A C F m).recloned C) (.attr e a))) ?_ (fun _ => hsh)
    exact AnyBecomes.good hO hH (hnJ.attr e a) h

theorem MayRun.goodC (hs : ∀ J, F J → J.Safe A) (hn : ∀ J, F J → J.NoStore) (n : Nat) (r : Req E Q Ent)
    (c : CProg E Q Ent r.Resp) (h : MayRun A (fun J' => ∃ J, F J ∧ J' = J.cloning C) n r c) :
    CProg.Good (CloneGet A C F) (ClonePut A C F) (Ev fun m => (CloneMixed A C F m).recloned C r) c := by
  induction n generalizing r c with
  | zero => cases h; exact fun h => absurd rfl h
  | succ n ih =>
    obtain ⟨_, ⟨J, hJ, rfl⟩, h⟩ := h
    exact Joined.Becomes.goodC hs hn hJ ih r c h

/-! ### the cache -/

/-- every cached value is a clone of something computed -/
def CacheCloned (A : Addr E) (C : Cloning E) (F : Joined E Q Ent → Prop) (c : Cache E Q Ent) : Prop :=
  ∀ x ∈ c, ∃ v : x.1.stat.Val, x.2 = .val x.1.stat.ty (C x.1.stat.ty v) ∧ Storable (E.layout x.1.stat.ty) ∧
    ∃ m, CloneMixed A C F m (.stat x.1.entity x.1.query x.1.stat) (.ok (some v))

theorem CacheCloned.typed {c : Cache E Q Ent} (h : CacheCloned A C F c) : CacheTyped c := fun x hx =>
  let ⟨v, h1, h2, _⟩ := h x hx
  ⟨C _ v, h1, h2⟩

section
variable [DecidableEq Q] [DecidableEq Ent]

theorem CacheCloned.insert {c : Cache E Q Ent} (h : CacheCloned A C F c) {k : CacheKey E Q Ent} {b : Buf E}
    (hb : ClonePut A C F k b) : CacheCloned A C F (HMap.insert (CacheKey.eq A) c k (b.clonedBy C)).1 := by
  intro x hx
  rcases HMap.mem_insert (CacheKey.eq_iff A) hx with h' | rfl
  · exact h x h'
  · obtain ⟨v, rfl, h2⟩ := hb
    exact ⟨v, rfl, h2⟩

theorem CacheCloned.get {c : Cache E Q Ent} (h : CacheCloned A C F c) (k : CacheKey E Q Ent) :
    CloneGet A C F k ((HMap.get (CacheKey.eq A) c k).map (Buf.clonedBy C)) := by
  intro b hb
  obtain ⟨b₀, hb₀, rfl⟩ := Option.map_eq_some_iff.1 hb
  obtain ⟨v, h1, h2⟩ := h _ (HMap.mem_of_get (CacheKey.eq_iff A) hb₀)
  exact ⟨v, congrArg (Buf.clonedBy C) h1, h2⟩

theorem CloneReachable.good (hs : ∀ J, F J → J.Safe A) (hn : ∀ J, F J → J.NoStore) {s : Conf E Q Ent}
    (h : CloneReachable A C F s) :
    CacheCloned A C F s.cache ∧ ∀ t ∈ s.threads, CProg.Good (CloneGet A C F) (ClonePut A C F)
      (Ev fun m => (CloneMixed A C F m).recloned C t.req) t.code := by
  have hnil : CacheCloned A C F ([] : Cache E Q Ent) := fun x hx => by cases hx
  induction h with
  | init => exact ⟨hnil, fun t ht => (by cases ht)⟩
  | step _ hstep ih =>
    obtain ⟨hc, ht⟩ := ih
    cases hstep with
    | start c ts n r code hcd =>
      refine ⟨hc, fun t h => ?_⟩
      rcases List.mem_append.1 h with h | h
      · exact ht t h
      · cases List.mem_singleton.1 h
        exact MayRun.goodC hs hn n r code hcd
    | get c ts i n r k f hi =>
      refine ⟨hc, fun t h => ?_⟩
      rcases List.mem_or_eq_of_mem_set h with h | rfl
      · exact ht t h
      · exact ht _ (List.mem_of_getElem? hi) _ (hc.get k)
    | put c ts i n r k b f hi =>
      have hp := ht _ (List.mem_of_getElem? hi)
      refine ⟨hc.insert hp.1, fun t h => ?_⟩
      rcases List.mem_or_eq_of_mem_set h with h | rfl
      · exact ht t h
      · exact hp.2
    | clear c c' ts h =>
      rw [hc.typed.clear] at h
      cases h
      exact ⟨hnil, ht⟩
    | wipe c c' ts i n r f hi h =>
      rw [hc.typed.clear] at h
      cases h
      refine ⟨hnil, fun t h => ?_⟩
      rcases List.mem_or_eq_of_mem_set h with h | rfl
      · exact ht t h
      · exact (show CProg.Good _ _ (Ev fun m => (CloneMixed A C F m).recloned C r) (.clear f) from
          ht _ (List.mem_of_getElem? hi))
    | wipeFail c e ts i n r f hi h =>
      rw [hc.typed.clear] at h
      cases h

end
end BSQ
