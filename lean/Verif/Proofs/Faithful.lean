import Verif.Proofs.Answer
/-! # Cached queries give the uncached answers -/
namespace BSQ
variable {E : Env} {Q Ent α β : Type}

theorem CacheKey.eq_iff [DecidableEq Q] [DecidableEq Ent] (A : Addr E) (a b : CacheKey E Q Ent) :
    CacheKey.eq A a b = true ↔ a = b := by
  obtain ⟨e, q, s⟩ := a
  obtain ⟨e', q', s'⟩ := b
  simp [CacheKey.eq, StatInst.eq_iff, and_assoc]

/-! ### well-behaved calls -/

/-- a value that can be cloned as one of the stat has its type -/
theorem Pair.cloneBuffer_ok {p : Pair E} {b : Buf E} (h : p.cloneBuffer = .ok b) :
    ∃ v : p.stat.Val, p.value = .val p.stat.ty v ∧ b = .val p.stat.ty v ∧ Storable (E.layout p.stat.ty) := by
  obtain ⟨s, x⟩ := p
  by_cases hs : Storable (E.layout s.ty)
  · simp only [Pair.cloneBuffer, vtClone, Buf.read, validate_eq] at h
    have hs' : Storable (E.layout (E.valTy s.vt)) := hs
    rw [if_pos hs', Res.bind_ok] at h
    obtain ⟨v, h1, h2⟩ := Res.bind_eq_ok.1 h
    rw [Buf.from_eq, if_pos hs'] at h2
    cases h2
    refine ⟨v, ?_, rfl, hs⟩
    cases x with
    | val u y =>
      simp only [Buf.get] at h1
      split at h1
      · rename_i hu
        subst hu
        cases h1
        rfl
      · cases h1
    | op _ _ => cases h1
  · have hs' : ¬ Storable (E.layout (E.valTy s.vt)) := hs
    simp only [Pair.cloneBuffer, vtClone, Buf.read, validate_eq, if_neg hs'] at h
    cases h

/-- the cached value has the type of its stat -/
def TypedEntry (k : CacheKey E Q Ent) (b : Buf E) : Prop :=
  ∃ v : k.stat.Val, b = .val k.stat.ty v ∧ Storable (E.layout k.stat.ty)

/-- values of the right type may be stored, or the code stores nothing itself -/
def Prog.MayStore (okPut : CacheKey E Q Ent → Buf E → Prop) (p : Prog E Q Ent α) : Prop :=
  (∀ k b, TypedEntry k b → okPut k b) ∨ p.NoStore

namespace Prog.MayStore
variable {okPut : CacheKey E Q Ent → Buf E → Prop}

theorem ask {r : Req E Q Ent} {k : r.Resp → Prog E Q Ent α} (h : (Prog.ask r k).MayStore okPut) (x : r.Resp) :
    (k x).MayStore okPut := h.imp_right fun h => h x

theorem attempt {r : Req E Q Ent} {k : Option r.Resp → Prog E Q Ent α} (h : (Prog.attempt r k).MayStore okPut)
    (x : Option r.Resp) : (k x).MayStore okPut := h.imp_right fun h => h x

theorem clear {k : Prog E Q Ent α} (h : (Prog.clear k).MayStore okPut) : k.MayStore okPut := h

theorem store {e : Ent} {q : QualifierQuery Q} {p : Pair E} {k : Prog E Q Ent α}
    (h : (Prog.store e q p k).MayStore okPut) : k.MayStore okPut := h.imp_right False.elim

theorem put {e : Ent} {q : QualifierQuery Q} {p : Pair E} {k : Prog E Q Ent α}
    (h : (Prog.store e q p k).MayStore okPut) {b : Buf E} (hb : p.cloneBuffer = .ok b) : okPut ⟨e, q, p.stat⟩ b := by
  obtain ⟨v, -, h2, h3⟩ := Pair.cloneBuffer_ok hb
  exact h.elim (fun h => h _ _ ⟨v, h2, h3⟩) False.elim

end Prog.MayStore

/-- outcomes allowed for a call on a pair of stat `s`, with errors restricted by `X` -/
def Call.Outcome (X : Err → Prop) (s : StatInst E) : Res (Pair E) → Prop
  | .ok p' => p'.stat = s ∧ p'.Typed
  | .error x => X x

/-- errors restricted by `X` -/
def ErrIn (X : Err → Prop) : Res α → Prop
  | .ok _ => True
  | .error e => X e

theorem ErrIn.attempt {X : Err → Prop} (x : Res α) (h : ErrIn X x) : ErrIn X x.attempt := by
  rcases x with (_ | _ | _) | a
  · trivial
  · exact h
  · exact h
  · trivial

section calls
variable {okGet : CacheKey E Q Ent → Option (Buf E) → Prop} {okPut : CacheKey E Q Ent → Buf E → Prop}
  {X : Err → Prop} {h : Handler E Q Ent}

theorem Prog.All.interp {P : Res α → Prop} {p : Prog E Q Ent α}
    (hh : ∀ r, CProg.Good okGet okPut (ErrIn X) (h r)) (hX : ∀ e, X e → P (.error e)) (hp : p.All P)
    (hs : p.MayStore okPut) :
    CProg.Good okGet okPut P (p.interp h) := by
  induction p with
  | ret a => exact hp
  | fail e => exact hp
  | ask r k ih => exact (hh r).bind (fun a _ => ih a (hp a) (hs.ask a)) hX
  | attempt r k ih =>
    exact ((hh r).attempt (R := ErrIn X) ErrIn.attempt).bind (fun a _ => ih a (hp a) (hs.attempt a)) hX
  | clear k ih => exact ih hp hs.clear
  | store e q p k ih =>
    simp only [Prog.All] at hp
    simp only [Prog.interp, CProg.cachePair]
    cases hb : p.cloneBuffer with
    | ok b =>
      rw [hb] at hp
      exact ⟨hs.put hb, ih hp hs.store⟩
    | error x =>
      rw [hb] at hp
      exact hp

theorem Prog.All.mono {P R : Res α → Prop} {p : Prog E Q Ent α} (hp : p.All P) (h : ∀ r, P r → R r) :
    p.All R := by
  induction p with
  | ret a => exact h _ hp
  | fail e => exact h _ hp
  | ask r k ih => exact fun x => ih x (hp x)
  | attempt r k ih => exact fun x => ih x (hp x)
  | clear k ih => exact ih hp
  | store e q p k ih =>
    simp only [Prog.All] at hp ⊢
    cases hb : p.cloneBuffer with
    | ok b => rw [hb] at hp; exact ih hp
    | error x => rw [hb] at hp; exact h _ hp

theorem Call.Safe.interp {c : Call E Q Ent} (hc : c.Safe) {p : Pair E} (hp : p.Typed)
    (hh : ∀ r, CProg.Good okGet okPut (ErrIn X) (h r)) (hX : ∀ e, e ≠ .ub → X e) (hs : (c p).MayStore okPut) :
    CProg.Good okGet okPut (Call.Outcome X p.stat) ((c p).interp h) := by
  refine Prog.All.interp hh (fun _ h => h) ((hc p hp).mono (fun r hr => ?_)) hs
  cases r with
  | ok p' => exact hr
  | error e => exact hX e hr

theorem callsCode_safe {l : List (Call E Q Ent)} (hl : ∀ c ∈ l, c.Safe) {p : Pair E} (hp : p.Typed)
    (hh : ∀ r, CProg.Good okGet okPut (ErrIn X) (h r)) (hX : ∀ e, e ≠ .ub → X e)
    (hs : ∀ c ∈ l, ∀ p, (c p).MayStore okPut) :
    CProg.Good okGet okPut (Call.Outcome X p.stat) (callsCode h l p) := by
  induction l generalizing p with
  | nil => exact ⟨rfl, hp⟩
  | cons c l ih =>
    refine ((hl c (by simp)).interp hp hh hX (hs c (by simp) p)).bind (fun p' hp' => ?_) (fun _ h => h)
    have := ih (fun c hc => hl c (by simp [hc])) (p := p') hp'.2 (fun c hc => hs c (by simp [hc]))
    rwa [hp'.1] at this

theorem anyCode_safe {l : List (Prog E Q Ent Bool)} (hl : ∀ c ∈ l, c.All (fun r => r ≠ .error .ub))
    (hh : ∀ r, CProg.Good okGet okPut (ErrIn X) (h r)) (hX : ∀ e, e ≠ .ub → X e)
    (hs : ∀ c ∈ l, c.MayStore okPut) :
    CProg.Good okGet okPut (ErrIn X) (anyCode h l) := by
  induction l with
  | nil => trivial
  | cons c l ih =>
    have : CProg.Good okGet okPut (ErrIn X) (c.interp h) := by
      refine Prog.All.interp hh (fun _ h => h) ((hl c (by simp)).mono (fun r hr => ?_)) (hs c (by simp))
      cases r with
      | ok p' => trivial
      | error e => exact hX e (by simpa using hr)
    refine this.bind (fun b _ => ?_) (fun _ h => h)
    cases b
    · exact ih (fun c hc => hl c (by simp [hc])) (fun c hc => hs c (by simp [hc]))
    · trivial

end calls

theorem runCalls_eq_cold (o : Oracle E Q Ent) (l : List (Call E Q Ent)) (p : Pair E) :
    runCalls o l p = (callsCode (fun r => CProg.lift (o r)) l p).cold := by
  rw [callsCode_cold]
  simp

theorem runCalls_safe {o : Oracle E Q Ent} {l : List (Call E Q Ent)} (hl : ∀ c ∈ l, c.Safe) {p p' : Pair E}
    (hp : p.Typed) (h : runCalls o l p = .ok p') : p'.stat = p.stat ∧ p'.Typed := by
  have hg := callsCode_safe (okGet := fun _ _ => True) (okPut := fun _ _ => True) (X := fun _ => True)
    (h := fun r => CProg.lift (o r)) hl hp
    (fun r => CProg.Good.lift (by cases o r <;> trivial)) (fun _ _ => trivial)
    (fun _ _ _ => .inl fun _ _ _ => trivial)
  have := hg.cold (fun _ => trivial)
  rw [← runCalls_eq_cold, h] at this
  exact this

namespace Joined.Safe
variable {A : Addr E} {J : Joined E Q Ent} (hJ : J.Safe A)
include hJ

theorem noCache : J.noCache.Safe A := ⟨hJ.globals, hJ.streams, hJ.relations, hJ.attrs, hJ.defaults⟩

theorem statCalls (e : Ent) (q : QualifierQuery Q) : ∀ c ∈ J.statCalls e q, c.Safe := by
  intro c hc
  simp only [Joined.statCalls, CStream.calls, List.mem_append, List.mem_map, List.mem_flatMap,
    List.mem_filterMap] at hc
  have hs := fun st (h : st ∈ J.comp.leaves ++ J.rel.leaves ++ J.child.leaves) => hJ.streams st h
  simp only [List.mem_append] at hs
  rcases hc with ((⟨g, hg, rfl⟩ | ⟨st, hst, it, ⟨x, -, hx⟩, rfl⟩) | ⟨st, hst, it, ⟨x, -, hx⟩, rfl⟩) | ⟨st, hst, it, ⟨x, -, hx⟩, rfl⟩
  · exact hJ.globals g hg _ _
  · exact hs st (.inl (.inl hst)) _ _ hx _ _
  · exact hs st (.inl (.inr hst)) _ _ hx _ _
  · exact hs st (.inr hst) _ _ hx _ _

theorem relationCalls (a b : Ent) (q : QualifierQuery Q) : ∀ c ∈ J.relationCalls a b q, c.Safe := by
  intro c hc
  simp only [Joined.relationCalls, List.mem_append, List.mem_map, List.mem_flatMap] at hc
  rcases hc with ⟨g, hg, rfl⟩ | ⟨st, hst, hc⟩
  · exact hJ.globals g hg _ _
  · unfold CStream.relationCalls at hc
    split at hc
    · rw [List.mem_singleton] at hc
      subst hc
      exact hJ.relations st hst _ _ _
    · cases hc

theorem attrCalls (e : Ent) (a : String) : ∀ c ∈ J.attrCalls e a, c.All (fun r => r ≠ .error .ub) := by
  intro c hc
  have hs := fun st (h : st ∈ J.comp.leaves ++ J.rel.leaves ++ J.child.leaves) => hJ.attrs st h
  simp only [List.mem_append] at hs
  simp only [Joined.attrCalls, CStream.attrCalls, List.mem_append, List.mem_map, List.mem_flatMap,
    List.mem_filterMap] at hc
  rcases hc with (⟨st, hst, it, ⟨x, -, hx⟩, rfl⟩ | ⟨st, hst, it, ⟨x, -, hx⟩, rfl⟩) | hc
  · exact hs st (.inl (.inl hst)) _ _ hx _ _
  · exact hs st (.inl (.inr hst)) _ _ hx _ _
  · split at hc
    · simp only [List.mem_map, List.mem_flatMap, List.mem_filterMap] at hc
      obtain ⟨st, hst, it, ⟨x, -, hx⟩, rfl⟩ := hc
      exact hs st (.inr hst) _ _ hx _ _
    · cases hc

theorem startValue (s : StatInst E) (hs : Storable (E.layout s.ty)) :
    ∃ v : s.Val, J.world.startValue A s = .ok (.val s.ty v) := by
  have hd : vtDefault s.vt = .ok (.val s.ty s.sv.default) := by
    have : Storable (E.layout (E.valTy s.vt)) := hs
    simp [vtDefault, Buf.from_eq, this]
  unfold World.startValue World.registered
  cases h : J.world.defaults with
  | none => exact ⟨s.sv.default, by simp [hd]⟩
  | some d =>
    simp only [Defaults.getDyn, hd]
    cases hg : HMap.get (StatInst.eq A) d s with
    | none => exact ⟨s.sv.default, by simp [Defaults.cloned]⟩
    | some b =>
      obtain ⟨v, rfl, -⟩ := hJ.defaults d h s b hg
      exact ⟨v, by simp [Defaults.cloned, vtClone_val hs]⟩

end Joined.Safe

/-! ### code that does not touch the cache -/

def CProg.NoClear : CProg E Q Ent α → Prop
  | .ret _ => True
  | .fail _ => True
  | .get _ f => ∀ o, (f o).NoClear
  | .put _ _ f => f.NoClear
  | .clear _ => False

theorem CProg.NoClear.lift (r : Res α) : (CProg.lift r : CProg E Q Ent α).NoClear := by
  cases r <;> trivial

theorem CProg.NoClear.bind {x : CProg E Q Ent α} {f : α → CProg E Q Ent β} (hx : x.NoClear)
    (hf : ∀ a, (f a).NoClear) : (x.bind f).NoClear := by
  induction x with
  | ret a => exact hf a
  | fail e => trivial
  | get k g ih => exact fun o => ih o (hx o)
  | put k b g ih => exact ih hx
  | clear g ih => exact hx.elim

theorem CProg.NoClear.attempt {x : CProg E Q Ent α} (hx : x.NoClear) : x.attempt.NoClear := by
  induction x with
  | ret a => trivial
  | fail e => cases e <;> trivial
  | get k g ih => exact fun o => ih o (hx o)
  | put k b g ih => exact ih hx
  | clear g ih => exact hx.elim

theorem Prog.Quiet.interp {h : Handler E Q Ent} (hh : ∀ r, (h r).NoClear) {p : Prog E Q Ent α} (hp : p.Quiet) :
    (p.interp h).NoClear := by
  induction p with
  | ret a => trivial
  | fail e => trivial
  | ask r k ih => exact (hh r).bind fun x => ih x (hp x)
  | attempt r k ih => exact (hh r).attempt.bind fun x => ih x (hp x)
  | clear k ih => exact hp.elim
  | store e q p k ih => exact hp.elim

theorem callsCode_noClear {h : Handler E Q Ent} (hh : ∀ r, (h r).NoClear) {l : List (Call E Q Ent)}
    (hl : ∀ c ∈ l, ∀ p, (c p).Quiet) (p : Pair E) : (callsCode h l p).NoClear := by
  induction l generalizing p with
  | nil => trivial
  | cons c l ih =>
    exact (Prog.Quiet.interp hh (hl c List.mem_cons_self p)).bind
      (ih fun c hc => hl c (List.mem_cons_of_mem _ hc))

theorem anyCode_noClear {h : Handler E Q Ent} (hh : ∀ r, (h r).NoClear) {l : List (Prog E Q Ent Bool)}
    (hl : ∀ c ∈ l, c.Quiet) : (anyCode h l).NoClear := by
  induction l with
  | nil => trivial
  | cons c l ih =>
    refine (Prog.Quiet.interp hh (hl c List.mem_cons_self)).bind fun b => ?_
    cases b
    · exact ih fun c hc => hl c (List.mem_cons_of_mem _ hc)
    · trivial

theorem Prog.Quiet.lift (r : Res α) : (Prog.lift r : Prog E Q Ent α).Quiet := by
  cases r <;> trivial

theorem Prog.Quiet.noStore {p : Prog E Q Ent α} (hp : p.Quiet) : p.NoStore := by
  induction p with
  | ret a => trivial
  | fail e => trivial
  | ask r k ih => exact fun x => ih x (hp x)
  | attempt r k ih => exact fun x => ih x (hp x)
  | clear k ih => exact hp.elim
  | store e q p k ih => exact hp.elim

theorem Joined.Each.imp {P R : ∀ {α : Type}, Prog E Q Ent α → Prop} {J : Joined E Q Ent} (h : J.Each P)
    (hPR : ∀ {α : Type} (p : Prog E Q Ent α), P p → R p) : J.Each R where
  stat e q c hc p := hPR _ (h.stat e q c hc p)
  relation a b q c hc p := hPR _ (h.relation a b q c hc p)
  attr e a c hc := hPR _ (h.attr e a c hc)

theorem Joined.Quiet.noStore {J : Joined E Q Ent} (h : J.Quiet) : J.NoStore := h.imp fun _ => Prog.Quiet.noStore

theorem Prog.NoStore.storesOk {okPut : CacheKey E Q Ent → Buf E → Prop} {o : Nat → Oracle E Q Ent}
    {p : Prog E Q Ent α} (hp : p.NoStore) : p.StoresOk okPut o := by
  induction p with
  | ret a => trivial
  | fail e => trivial
  | ask r k ih => exact fun x _ => ih x (hp x)
  | attempt r k ih => exact fun x _ => ih x (hp x)
  | clear k ih => exact ih hp
  | store e q p k ih => exact hp.elim

theorem Prog.NoStore.honest {A : Addr E} {J : Joined E Q Ent} {p : Prog E Q Ent α} (hp : p.NoStore) :
    p.Honest A J := by
  induction p with
  | ret a => trivial
  | fail e => trivial
  | ask r k ih => exact fun x _ => ih x (hp x)
  | attempt r k ih => exact fun x _ => ih x (hp x)
  | clear k ih => exact ih hp
  | store e q p k ih => exact hp.elim

theorem HonestCalls.of_noStore {A : Addr E} {J : Joined E Q Ent} {l : List (Call E Q Ent)}
    (hl : ∀ c ∈ l, ∀ p, (c p).NoStore) (p : Pair E) : HonestCalls A J l p := by
  induction l generalizing p with
  | nil => trivial
  | cons c l ih =>
    exact ⟨(hl c List.mem_cons_self p).honest, fun _ p' _ => ih (fun c hc => hl c (List.mem_cons_of_mem _ hc)) p'⟩

/-- streams that store nothing store nothing wrong -/
theorem Joined.Safe.honest {A : Addr E} {J : Joined E Q Ent} (hJ : J.Safe A) (hn : J.NoStore) : J.Honest A where
  safe := hJ
  stat e q _ _ _ _ := .of_noStore (hn.stat e q) _
  relation a b q _ _ _ _ _ := .of_noStore (hn.relation a b q) _
  attr e a c hc := (hn.attr e a c hc).honest

/-- it suffices to look at each stream -/
theorem Joined.Each.of_streams {P : ∀ {α : Type}, Prog E Q Ent α → Prop} {J : Joined E Q Ent}
    (globals : ∀ g ∈ J.world.relations.getD [], ∀ e q p, P (g e q p))
    (streams : ∀ st ∈ J.comp.leaves ++ J.rel.leaves ++ J.child.leaves, ∀ e it, st.query e = some it →
      ∀ this q p, P (st.stream this it q p))
    (relations : ∀ st ∈ J.rel.leaves, ∀ a b q p, P (st.relation a b q p))
    (attrs : ∀ st ∈ J.comp.leaves ++ J.rel.leaves ++ J.child.leaves, ∀ e it, st.query e = some it → ∀ this a,
      P (st.attr this it a)) : J.Each P where
  stat e q c hc := by
    simp only [Joined.statCalls, CStream.calls, List.mem_append, List.mem_map, List.mem_flatMap,
      List.mem_filterMap] at hc
    simp only [List.mem_append] at streams
    rcases hc with ((⟨g, hg, rfl⟩ | ⟨st, hst, it, ⟨x, -, hx⟩, rfl⟩) | ⟨st, hst, it, ⟨x, -, hx⟩, rfl⟩) | ⟨st, hst, it, ⟨x, -, hx⟩, rfl⟩
    · exact globals g hg _ _
    · exact streams st (.inl (.inl hst)) _ _ hx _ _
    · exact streams st (.inl (.inr hst)) _ _ hx _ _
    · exact streams st (.inr hst) _ _ hx _ _
  relation a b q c hc := by
    simp only [Joined.relationCalls, List.mem_append, List.mem_map, List.mem_flatMap] at hc
    rcases hc with ⟨g, hg, rfl⟩ | ⟨st, hst, hc⟩
    · exact globals g hg _ _
    · unfold CStream.relationCalls at hc
      split at hc
      · rw [List.mem_singleton] at hc
        subst hc
        exact relations st hst _ _ _
      · cases hc
  attr e a c hc := by
    simp only [List.mem_append] at attrs
    simp only [Joined.attrCalls, CStream.attrCalls, List.mem_append, List.mem_map, List.mem_flatMap,
      List.mem_filterMap] at hc
    rcases hc with (⟨st, hst, it, ⟨x, -, hx⟩, rfl⟩ | ⟨st, hst, it, ⟨x, -, hx⟩, rfl⟩) | hc
    · exact attrs st (.inl (.inl hst)) _ _ hx _ _
    · exact attrs st (.inl (.inr hst)) _ _ hx _ _
    · split at hc
      · simp only [List.mem_map, List.mem_flatMap, List.mem_filterMap] at hc
        obtain ⟨st, hst, it, ⟨x, -, hx⟩, rfl⟩ := hc
        exact attrs st (.inr hst) _ _ hx _ _
      · cases hc

theorem Joined.Quiet.noClear {J : Joined E Q Ent} (hJ : J.Quiet) (A : Addr E) (n : Nat) (r : Req E Q Ent) :
    (J.handle A n r).NoClear := by
  induction n generalizing r with
  | zero => trivial
  | succ n ih =>
    cases r with
    | stat e q s =>
      change ((CProg.lift (validate (E.layout s.ty))).bind fun _ => _).NoClear
      refine (CProg.NoClear.lift _).bind fun _ => CProg.NoClear.bind ?_ fun _ => CProg.NoClear.lift _
      unfold Joined.queryStatErased
      split
      · refine CProg.NoClear.bind ?_ fun o => ?_
        · unfold Joined.lookup
          split
          · exact fun o => CProg.NoClear.lift _
          · trivial
        · cases o with
          | some b => trivial
          | none =>
            unfold Joined.miss
            refine CProg.NoClear.bind ?_ fun p => CProg.NoClear.bind ?_ fun _ => trivial
            · rw [J.compute_eq]
              exact (CProg.NoClear.lift _).bind fun _ => callsCode_noClear ih (hJ.stat e q) _
            · unfold Joined.remember
              split
              · exact (CProg.NoClear.lift _).bind fun _ => trivial
              · trivial
      · trivial
    | relation a b q s =>
      change ((CProg.lift (validate (E.layout s.ty))).bind fun _ => _).NoClear
      refine (CProg.NoClear.lift _).bind fun _ => CProg.NoClear.bind ?_ fun _ => CProg.NoClear.lift _
      rw [J.queryRelationErased_eq]
      split
      · refine (CProg.NoClear.lift _).bind fun _ => CProg.NoClear.bind ?_ fun _ => trivial
        exact callsCode_noClear ih (hJ.relation a b q) _
      · trivial
    | attr e a =>
      change (J.hasAttributeErased _ e a).NoClear
      rw [J.hasAttributeErased_eq]
      exact anyCode_noClear ih (hJ.attr e a)

theorem CProg.Good.run_noClear [DecidableEq Q] [DecidableEq Ent] {okGet : CacheKey E Q Ent → Option (Buf E) → Prop}
    {okPut : CacheKey E Q Ent → Buf E → Prop} {P : Res α → Prop} {A : Addr E} (Inv : Cache E Q Ent → Prop)
    (hget : ∀ c, Inv c → ∀ k, okGet k (HMap.get (CacheKey.eq A) c k))
    (hput : ∀ c k b, Inv c → okPut k b → Inv (HMap.insert (CacheKey.eq A) c k b).1)
    {x : CProg E Q Ent α} (hx : CProg.Good okGet okPut P x) (hn : x.NoClear) {c : Cache E Q Ent} (hc : Inv c) :
    P (x.run A c).1 ∧ Inv (x.run A c).2 := by
  induction x generalizing c with
  | ret a => exact ⟨hx, hc⟩
  | fail e => exact ⟨hx, hc⟩
  | get k g ih => exact ih _ (hx _ (hget c hc k)) (hn _) hc
  | put k b g ih => exact ih hx.2 hn (hput c k b hc hx.1)
  | clear g ih => exact hn.elim

/-! ### the main invariant -/

/-- the cached value is the uncached answer -/
def ValidEntry (A : Addr E) (J : Joined E Q Ent) (k : CacheKey E Q Ent) (b : Buf E) : Prop :=
  ∃ v : k.stat.Val, b = .val k.stat.ty v ∧ Storable (E.layout k.stat.ty) ∧
    ∃ m, J.answer A m (.stat k.entity k.query k.stat) = .ok (some v)

/-- allowed answers of the cache -/
def ValidGet (A : Addr E) (J : Joined E Q Ent) (k : CacheKey E Q Ent) (o : Option (Buf E)) : Prop :=
  ∀ b, o = some b → ValidEntry A J k b

variable {A : Addr E} {J : Joined E Q Ent}

theorem Prog.Honest.storesOk {p : Prog E Q Ent α} (hp : p.Honest A J) :
    p.StoresOk (ValidEntry A J) (fun m => J.answer A m) := by
  induction p with
  | ret a => trivial
  | fail e => trivial
  | ask r k ih => exact fun x hx => ih x (hp x hx)
  | attempt r k ih => exact fun x hx => ih x (hp x hx)
  | clear k ih => exact ih hp
  | store e q p k ih =>
    refine ⟨fun b hb => ?_, ih hp.2⟩
    obtain ⟨v, h1, h2, h3⟩ := Pair.cloneBuffer_ok hb
    exact ⟨v, h2, h3, hp.1 v h1⟩

theorem HonestCalls.ok {l : List (Call E Q Ent)} {p : Pair E} (hl : HonestCalls A J l p) :
    CallsOk (ValidEntry A J) (fun m => J.answer A m) l p := by
  induction l generalizing p with
  | nil => trivial
  | cons c l ih => exact ⟨hl.1.storesOk, fun m p' h => ih (hl.2 m p' h)⟩

theorem answer_mono (r : Req E Q Ent) : DepthMono (fun n => J.answer A n r) :=
  fun _ _ h => J.answer_le A h r

theorem Faith.shift {X : Nat → Res α} {n : Nat} {r : Res α} (h : Faith (fun m => X (m + 1)) n r) :
    Faith X (n + 1) r :=
  ⟨h.1, fun hr => (h.2 hr).elim fun m hm => ⟨m + 1, hm⟩⟩

theorem readAs_val {s : StatInst E} (hs : Storable (E.layout s.ty)) (v : s.Val) :
    StatMap.readAs s (some (.val s.ty v)) = .ok (some v) := by
  simp [StatMap.readAs, Buf.read_val hs]

/-- the uncached family for a stat request on a `StatEntity`, after validation -/
def Joined.body (A : Addr E) (J : Joined E Q Ent) (e : Ent) (q : QualifierQuery Q) (s : StatInst E) (m : Nat) :
    Res (Option s.Val) :=
  (J.world.startValue A s >>= fun v => runCalls (J.answer A m) (J.statCalls e q) ⟨s, v⟩) >>= fun p =>
    p.value.read s.ty >>= fun x => .ok (some x)

theorem Joined.answer_body {e : Ent} {q : QualifierQuery Q} {s : StatInst E} (hs : Storable (E.layout s.ty))
    (he : J.world.isStat e = true) (m : Nat) : J.answer A (m + 1) (.stat e q s) = J.body A e q s m := by
  rw [J.answer_succ]
  simp only [Joined.ideal, validate_eq, hs, if_true, he, Res.bind_ok, Joined.body]
  cases J.world.startValue A s <;> rfl

theorem Joined.remember_eq {e : Ent} {q : QualifierQuery Q} {s : StatInst E}
    (hs : Storable (E.layout s.ty)) (v : s.Val) :
    J.remember e q ⟨s, .val s.ty v⟩ =
      if J.world.cached then .put ⟨e, q, s⟩ (.val s.ty v) (.ret ()) else .ret () := by
  unfold Joined.remember CProg.cachePair Pair.cloneBuffer
  rw [vtClone_val hs]
  rfl

/-- what a successful computation yields -/
theorem Joined.Safe.computed (hJ : J.Safe A) {e : Ent} {q : QualifierQuery Q} {s : StatInst E}
    {o : Oracle E Q Ent} (hs : Storable (E.layout s.ty)) {p : Pair E}
    (h : (J.world.startValue A s >>= fun v => runCalls o (J.statCalls e q) ⟨s, v⟩) = .ok p) :
    ∃ v : s.Val, p = ⟨s, .val s.ty v⟩ := by
  obtain ⟨v0, hv0⟩ := hJ.startValue s hs
  rw [hv0, Res.bind_ok] at h
  obtain ⟨h1, h2⟩ := runCalls_safe (hJ.statCalls e q) (p := ⟨s, .val s.ty v0⟩) ⟨v0, rfl⟩ h
  obtain ⟨s', b⟩ := p
  change s' = s at h1
  subst h1
  obtain ⟨v, hv⟩ := h2
  change b = _ at hv
  exact ⟨v, by rw [hv]⟩

/-- a value is misread exactly if it is of another type -/
theorem Buf.read_ub {u : E.U} (hs : Storable (E.layout u)) (b : Buf E) :
    Buf.read u b = .error .ub ↔ ∀ x : E.El u, b ≠ .val u x := by
  constructor
  · rintro h x rfl
    rw [Buf.read_val hs] at h
    cases h
  · intro h
    unfold Buf.read
    rw [validate_eq, if_pos hs]
    cases b with
    | val v x =>
      by_cases hu : v = u
      · subst hu
        exact absurd rfl (h x)
      · change (if h : v = u then .ok (h ▸ x) else .error .ub) = (.error .ub : Res (E.El u))
        rw [dif_neg hu]
    | op v o => rfl

/-- the outcome of cloning the value of a pair -/
theorem Pair.cloneBuffer_eq (p : Pair E) (hs : Storable (E.layout p.stat.ty)) :
    (∃ v : p.stat.Val, p.value = .val p.stat.ty v ∧ p.cloneBuffer = .ok (.val p.stat.ty v)) ∨
    (∀ v : p.stat.Val, p.value ≠ .val p.stat.ty v) ∧ p.cloneBuffer = .error .ub := by
  by_cases h : ∃ v : p.stat.Val, p.value = .val p.stat.ty v
  · obtain ⟨v, hv⟩ := h
    refine .inl ⟨v, hv, ?_⟩
    rw [Pair.cloneBuffer, hv]
    exact vtClone_val hs v
  · have h' : ∀ v : p.stat.Val, p.value ≠ .val p.stat.ty v := fun v hv => h ⟨v, hv⟩
    refine .inr ⟨h', ?_⟩
    rw [Pair.cloneBuffer, vtClone, (Buf.read_ub hs p.value).2 h']
    rfl

/-- well-behaved streams make queries store right results -/
theorem Joined.Safe.storesRight (hJ : J.Safe A) : J.StoresRight A := by
  intro e q s v m p he hs hv hp
  have hp' : (J.world.startValue A s >>= fun v => runCalls (J.answer A m) (J.statCalls e q) ⟨s, v⟩) = .ok p := by
    rw [hv]; exact hp
  obtain ⟨w, rfl⟩ := hJ.computed hs hp'
  refine ⟨hs, .inl ⟨w, m + 1, rfl, ?_⟩⟩
  rw [Joined.answer_body hs he, Joined.body, hp', Res.bind_ok]
  change (Buf.read s.ty (.val s.ty w) >>= _) = _
  rw [Buf.read_val hs]; rfl

theorem Joined.Honest.right (hJ : J.Honest A) : J.Right A :=
  ⟨fun _ => hJ.safe.storesRight, hJ.stat, hJ.relation, hJ.attr⟩

theorem Joined.Right.miss_good (hJ : J.Right A) {n : Nat} {h : Handler E Q Ent}
    (hh : ∀ r, CProg.Good (ValidGet A J) (ValidEntry A J) (Faith (fun m => J.answer A m r) n) (h r))
    {e : Ent} (q : QualifierQuery Q) {s : StatInst E} (hs : Storable (E.layout s.ty))
    (he : J.world.isStat e = true) :
    CProg.Good (ValidGet A J) (ValidEntry A J) (Faith (J.body A e q s) n)
      ((J.miss A h e q s).bind fun o => CProg.lift (StatMap.readAs s o)) := by
  unfold Joined.miss
  simp only [CProg.bind_eq, CProg.bind_assoc]
  have hmono : DepthMono (fun m => J.world.startValue A s >>= fun v =>
      runCalls (J.answer A m) (J.statCalls e q) ⟨s, v⟩) :=
    DepthMono.bind (DepthMono.const _) (fun v => DepthMono.calls answer_mono _ _)
  refine Faith.bind (X := fun m => J.world.startValue A s >>= fun v =>
      runCalls (J.answer A m) (J.statCalls e q) ⟨s, v⟩)
    (F := fun _ p => p.value.read s.ty >>= fun x => .ok (some x)) ?_ hmono (fun _ => DepthMono.const _) ?_
  · rw [J.compute_eq]
    exact Faith.bind (X := fun _ => J.world.startValue A s) (Faith.const n _) (DepthMono.const _)
      (fun v => DepthMono.calls answer_mono _ _)
      (fun v hv => Faith.calls answer_mono hh _ _ (hJ.stat e q s v he (hv.elim fun _ h => h)).ok)
  · rintro p ⟨m, hm⟩
    obtain ⟨v, hv, hp⟩ := Res.bind_eq_ok.1 hm
    unfold Joined.remember
    cases hc : J.world.cached with
    | false =>
      simp only [Bool.false_eq_true, if_false, CProg.bind_ret]
      exact Faith.const n _
    | true =>
      simp only [if_true, CProg.cachePair]
      obtain ⟨hs', h1⟩ := hJ.results hc e q s v m p he hs hv hp
      rcases p.cloneBuffer_eq hs' with ⟨v', hv', hb⟩ | ⟨hne, hb⟩
      · rw [hb]
        simp only [CProg.lift_ok, CProg.bind_ret, CProg.bind_put]
        refine ⟨⟨v', rfl, hs', ?_⟩, Faith.const n _⟩
        rcases h1 with ⟨v'', m', hv'', h1⟩ | ⟨h1, -⟩
        · rw [hv'] at hv''
          cases hv''
          exact ⟨m', h1⟩
        · exact absurd hv' (h1 v')
      · rcases h1 with ⟨v'', m', hv'', -⟩ | ⟨-, h1⟩
        · exact absurd hv'' (hne v'')
        · rw [hb, (Buf.read_ub hs p.value).2 h1]
          exact Faith.self (fun _ => .error .ub) n

/-- all code of a querier is faithful, provided the cache answers with valid entries, and only stores such -/
theorem Joined.Right.faithful (hJ : J.Right A) (n : Nat) (r : Req E Q Ent) :
    CProg.Good (ValidGet A J) (ValidEntry A J) (Faith (fun m => J.answer A m r) n) (J.handle A n r) := by
  induction n generalizing r with
  | zero => exact ⟨fun h => absurd rfl h, fun h => absurd rfl h⟩
  | succ n ih =>
    refine CProg.Good.mono (P := Faith (fun m => J.answer A (m + 1) r) n) ?_ (fun _ h => h.shift)
    simp only [J.answer_succ]
    cases r with
    | stat e q s =>
      change CProg.Good _ _ (Faith (fun m => validate (E.layout s.ty) >>= fun _ => _) n)
        ((CProg.lift _).bind fun _ => _)
      refine Faith.bind (X := fun _ => validate (E.layout s.ty))
        (F := fun m _ => if J.world.isStat e then _ else _) (Faith.const n _) (DepthMono.const _) ?_ ?_
      · intro _
        cases J.world.isStat e with
        | false => exact DepthMono.const _
        | true => exact DepthMono.bind (DepthMono.const _) (fun v => DepthMono.bind
            (DepthMono.calls answer_mono _ _) (fun _ => DepthMono.const _))
      · rintro _ ⟨_, hv⟩
        have hs : Storable (E.layout s.ty) := by
          rw [validate_eq] at hv
          by_contra hs
          simp [hs] at hv
        unfold Joined.queryStatErased
        cases he : J.world.isStat e with
        | false => exact Faith.self (fun _ => .ok none) n
        | true =>
          simp only [if_true, CProg.bind_eq, CProg.bind_assoc]
          have hbody : (fun m => J.world.startValue A s >>= fun v =>
              runCalls (J.answer A m) (J.statCalls e q) ⟨s, v⟩ >>= fun p =>
                p.value.read s.ty >>= fun x => (.ok (some x) : Res (Option s.Val))) = J.body A e q s := by
            funext m
            unfold Joined.body
            cases J.world.startValue A s <;> rfl
          change CProg.Good _ _ (Faith (fun m => J.world.startValue A s >>= fun v =>
              runCalls (J.answer A m) (J.statCalls e q) ⟨s, v⟩ >>= fun p =>
                p.value.read s.ty >>= fun x => (.ok (some x) : Res (Option s.Val))) n) _
          rw [hbody]
          unfold Joined.lookup
          cases J.world.cached with
          | false =>
            simp only [Bool.false_eq_true, if_false, CProg.bind_ret]
            exact hJ.miss_good ih q hs he
          | true =>
            simp only [if_true, CProg.bind_get]
            intro o ho
            cases o with
            | none =>
              simp only [Defaults.cloned, CProg.lift_ok, CProg.bind_ret]
              exact hJ.miss_good ih q hs he
            | some b =>
              obtain ⟨v, rfl, -, m, hm⟩ := ho b rfl
              change J.answer A m (.stat e q s) = _ at hm
              change s.Val at v
              have hc : Defaults.cloned s (some (.val s.ty v)) = .ok (some (.val s.ty v)) := by
                simp [Defaults.cloned, vtClone_val hs]
              simp only [hc, CProg.lift_ok, CProg.bind_ret, readAs_val hs]
              refine ⟨fun hne => ?_, fun _ => ?_⟩
              · rw [← Joined.answer_body hs he] at hne ⊢
                rw [J.answer_unique A hne (m := m) (by rw [hm]; simp), hm]
                rfl
              · cases m with
                | zero => cases hm
                | succ m => exact ⟨m, by rw [← Joined.answer_body hs he, hm]; rfl⟩
    | relation a b q s =>
      change CProg.Good _ _ (Faith (fun m => validate (E.layout s.ty) >>= fun _ => _) n)
        ((CProg.lift _).bind fun _ => _)
      refine Faith.bind (X := fun _ => validate (E.layout s.ty))
        (F := fun m _ => if J.world.isStat a && J.world.isStat b then _ else _)
        (Faith.const n _) (DepthMono.const _) ?_ ?_
      · intro _
        cases J.world.isStat a && J.world.isStat b with
        | false => exact DepthMono.const _
        | true => exact DepthMono.bind (DepthMono.const _) (fun v => DepthMono.bind
            (DepthMono.calls answer_mono _ _) (fun _ => DepthMono.const _))
      · rintro _ _
        rw [J.queryRelationErased_eq]
        cases he : J.world.isStat a && J.world.isStat b with
        | false => exact Faith.self (fun _ => .ok none) n
        | true =>
          simp only [if_true, CProg.bind_eq, CProg.bind_assoc, CProg.bind_ret]
          exact Faith.bind (X := fun _ => J.world.startValue A s) (Faith.const n _) (DepthMono.const _)
            (fun v => DepthMono.bind (DepthMono.calls answer_mono _ _) (fun _ => DepthMono.const _))
            (fun v hv => Faith.bind (X := fun m => runCalls (J.answer A m) (J.relationCalls a b q) ⟨s, v⟩)
              (Faith.calls answer_mono ih _ _ (hJ.relation a b q s v (Bool.and_eq_true_iff.1 he).1
                (Bool.and_eq_true_iff.1 he).2 (hv.elim fun _ h => h)).ok) (DepthMono.calls answer_mono _ _) (fun _ => DepthMono.const _)
              (fun p _ => Faith.const n _))
    | attr e a =>
      change CProg.Good _ _ (Faith (fun m => anyCalls (J.answer A m) _) n) (J.hasAttributeErased _ e a)
      rw [J.hasAttributeErased_eq]
      exact Faith.any answer_mono ih _ (fun c hc => (hJ.attr e a c hc).storesOk)

theorem Joined.Honest.faithful (hJ : J.Honest A) (n : Nat) (r : Req E Q Ent) :
    CProg.Good (ValidGet A J) (ValidEntry A J) (Faith (fun m => J.answer A m r) n) (J.handle A n r) :=
  hJ.right.faithful n r

/-! ### types of cached values -/

/-- `CProg.cachePair` only stores values of the type of their stat -/
theorem CProg.cachePair_putsTyped (e : Ent) (q : QualifierQuery Q) (p : Pair E) {f : CProg E Q Ent α}
    (hf : CProg.Good (fun _ _ => True) TypedEntry (fun _ => True) f) :
    CProg.Good (fun _ _ => True) TypedEntry (fun _ => True) (CProg.cachePair e q p f) := by
  unfold CProg.cachePair
  cases h : p.cloneBuffer with
  | error x => trivial
  | ok b =>
    obtain ⟨v, -, h2, h3⟩ := Pair.cloneBuffer_ok h
    exact ⟨⟨v, h2, h3⟩, hf⟩

theorem Prog.interp_putsTyped {h : Handler E Q Ent}
    (hh : ∀ r, CProg.Good (fun _ _ => True) TypedEntry (fun _ => True) (h r)) (p : Prog E Q Ent α) :
    CProg.Good (fun _ _ => True) TypedEntry (fun _ => True) (p.interp h) := by
  induction p with
  | ret a => trivial
  | fail e => trivial
  | ask r k ih => exact (hh r).bind (fun x _ => ih x) (fun _ _ => trivial)
  | attempt r k ih =>
    exact ((hh r).attempt (R := fun _ => True) fun _ _ => trivial).bind (fun x _ => ih x) (fun _ _ => trivial)
  | clear k ih => exact ih
  | store e q p k ih => exact CProg.cachePair_putsTyped e q p ih

theorem callsCode_putsTyped {h : Handler E Q Ent}
    (hh : ∀ r, CProg.Good (fun _ _ => True) TypedEntry (fun _ => True) (h r)) (l : List (Call E Q Ent)) (p : Pair E) :
    CProg.Good (fun _ _ => True) TypedEntry (fun _ => True) (callsCode h l p) := by
  induction l generalizing p with
  | nil => trivial
  | cons c l ih => exact ((c p).interp_putsTyped hh).bind (fun p' _ => ih p') (fun _ _ => trivial)

theorem anyCode_putsTyped {h : Handler E Q Ent}
    (hh : ∀ r, CProg.Good (fun _ _ => True) TypedEntry (fun _ => True) (h r)) (l : List (Prog E Q Ent Bool)) :
    CProg.Good (fun _ _ => True) TypedEntry (fun _ => True) (anyCode h l) := by
  induction l with
  | nil => trivial
  | cons c l ih =>
    refine (c.interp_putsTyped hh).bind (fun b _ => ?_) (fun _ _ => trivial)
    cases b with
    | true => trivial
    | false => exact ih

/-- whatever the streams do, code of a querier only stores values of the type of their stat -/
theorem Joined.putsTyped (A : Addr E) (J : Joined E Q Ent) (n : Nat) (r : Req E Q Ent) :
    CProg.Good (fun _ _ => True) TypedEntry (fun _ => True) (J.handle A n r) := by
  induction n generalizing r with
  | zero => trivial
  | succ n ih =>
    cases r with
    | stat e q s =>
      change CProg.Good _ _ _ ((CProg.lift _).bind fun _ => (J.queryStatErased A (J.handle A n) e q s).bind fun _ => _)
      refine (CProg.Good.lift (P := fun _ => True) trivial).bind (fun _ _ => ?_) (fun _ _ => trivial)
      refine CProg.Good.bind (P := fun _ => True) ?_ (fun _ _ => CProg.Good.lift trivial) (fun _ _ => trivial)
      unfold Joined.queryStatErased
      cases J.world.isStat e with
      | false => trivial
      | true =>
        have hmiss : CProg.Good (fun _ _ => True) TypedEntry (fun _ => True) (J.miss A (J.handle A n) e q s) := by
          unfold Joined.miss
          simp only [CProg.bind_eq, J.compute_eq, CProg.bind_assoc]
          refine (CProg.Good.lift (P := fun _ => True) trivial).bind (fun v _ => ?_) (fun _ _ => trivial)
          refine (callsCode_putsTyped ih _ _).bind (fun p _ => ?_) (fun _ _ => trivial)
          refine CProg.Good.bind (P := fun _ => True) ?_ (fun _ _ => trivial) (fun _ _ => trivial)
          unfold Joined.remember
          cases J.world.cached with
          | false => trivial
          | true => exact CProg.cachePair_putsTyped e q p trivial
        simp only [if_true, CProg.bind_eq]
        refine CProg.Good.bind (P := fun _ => True) ?_ (fun o _ => ?_) (fun _ _ => trivial)
        · unfold Joined.lookup
          cases J.world.cached with
          | false => trivial
          | true => exact fun o _ => CProg.Good.lift trivial
        · cases o with
          | none => exact hmiss
          | some b => trivial
    | relation a b q s =>
      change CProg.Good _ _ _ ((CProg.lift _).bind fun _ => (J.queryRelationErased A (J.handle A n) a b q s).bind fun _ => _)
      refine (CProg.Good.lift (P := fun _ => True) trivial).bind (fun _ _ => ?_) (fun _ _ => trivial)
      refine CProg.Good.bind (P := fun _ => True) ?_ (fun _ _ => CProg.Good.lift trivial) (fun _ _ => trivial)
      rw [J.queryRelationErased_eq]
      cases J.world.isStat a && J.world.isStat b with
      | false => trivial
      | true =>
        refine (CProg.Good.lift (P := fun _ => True) trivial).bind (fun v _ => ?_) (fun _ _ => trivial)
        exact (callsCode_putsTyped ih _ _).bind (fun p _ => trivial) (fun _ _ => trivial)
    | attr e a =>
      change CProg.Good _ _ _ (J.hasAttributeErased _ e a)
      rw [J.hasAttributeErased_eq]
      exact anyCode_putsTyped ih _

/-- Code of a querier does no undefined behaviour as long as cached values have the right type, and stores
such values; if streams store nothing themselves, only under keys it found absent. -/
theorem Joined.Safe.typedCode (hJ : J.Safe A) {okGet : CacheKey E Q Ent → Option (Buf E) → Prop}
    {okPut : CacheKey E Q Ent → Buf E → Prop} (hG : ∀ k b, okGet k (some b) → TypedEntry k b)
    (hP : ∀ k b, okGet k none → TypedEntry k b → okPut k b)
    (hS : (∀ k b, TypedEntry k b → okPut k b) ∨ J.NoStore) (n : Nat) (r : Req E Q Ent) :
    CProg.Good okGet okPut (ErrIn (· ≠ .ub)) (J.handle A n r) := by
  have hval : ∀ l, ErrIn (· ≠ .ub) (validate l) := by
    intro l
    rw [validate_eq]
    split <;> simp [ErrIn]
  have hst : ∀ {l : Layout}, validate l = .ok () → Storable l := by
    intro l hv
    rw [validate_eq] at hv
    by_contra hs
    simp [hs] at hv
  have hread : ∀ {s : StatInst E} {p : Pair E}, Storable (E.layout s.ty) → p.stat = s → p.Typed →
      ErrIn (· ≠ .ub) (StatMap.readAs s (some p.value)) := by
    rintro s ⟨s', b⟩ hs hss ⟨v, hv⟩
    change s' = s at hss
    subst hss
    change s'.Val at v
    change b = .val s'.ty v at hv
    subst hv
    change ErrIn _ (StatMap.readAs s' (some (Buf.val s'.ty v)))
    rw [readAs_val hs]
    trivial
  induction n generalizing r with
  | zero => simp [Joined.handle, CProg.Good, ErrIn]
  | succ n ih =>
    cases r with
    | stat e q s =>
      change CProg.Good _ _ _ ((CProg.lift (validate (E.layout s.ty))).bind fun _ => _)
      have hlift : CProg.Good okGet okPut (fun x => x = validate (E.layout s.ty))
          (CProg.lift (validate (E.layout s.ty)) : CProg E Q Ent Unit) := CProg.Good.lift rfl
      refine hlift.bind (fun u hu => ?_) (fun x hx => by
        have := hval (E.layout s.ty); rw [← hx] at this; exact this)
      have hs := hst hu.symm
      unfold Joined.queryStatErased
      cases he : J.world.isStat e with
      | false => trivial
      | true =>
        have hmiss : (J.world.cached = true → okGet ⟨e, q, s⟩ none) → CProg.Good okGet okPut (ErrIn (· ≠ .ub))
            ((J.miss A (J.handle A n) e q s).bind fun o => CProg.lift (StatMap.readAs s o)) := by
          intro hnone
          unfold Joined.miss
          simp only [CProg.bind_eq, CProg.bind_assoc]
          rw [J.compute_eq]
          obtain ⟨v0, hv0⟩ := hJ.startValue s hs
          rw [hv0]
          simp only [CProg.lift_ok, CProg.bind_ret]
          refine (callsCode_safe (hJ.statCalls e q) (p := ⟨s, .val s.ty v0⟩) ⟨v0, rfl⟩ ih
            (X := (· ≠ .ub)) (fun _ h => h)
            (fun c hc p => hS.imp_right fun h => h.stat e q c hc p)).bind (fun p hp => ?_) (fun _ h => h)
          obtain ⟨s', b⟩ := p
          obtain ⟨hss, v, hv⟩ := hp
          change s' = s at hss
          subst hss
          change s'.Val at v
          change b = .val s'.ty v at hv
          subst hv
          have hr := hread (s := s') (p := ⟨s', .val s'.ty v⟩) hs rfl ⟨v, rfl⟩
          rw [Joined.remember_eq hs]
          cases hc : J.world.cached with
          | false => exact CProg.Good.lift hr
          | true => exact ⟨hP _ _ (hnone hc) ⟨v, rfl, hs⟩, CProg.Good.lift hr⟩
        simp only [if_true, CProg.bind_eq, CProg.bind_assoc]
        unfold Joined.lookup
        cases hc : J.world.cached with
        | false =>
          simp only [Bool.false_eq_true, if_false, CProg.bind_ret]
          exact hmiss (by simp [hc])
        | true =>
          simp only [if_true, CProg.bind_get]
          intro o ho
          cases o with
          | none =>
            simp only [Defaults.cloned, CProg.lift_ok, CProg.bind_ret]
            exact hmiss (fun _ => ho)
          | some b =>
            obtain ⟨v, rfl, -⟩ := hG _ b ho
            change s.Val at v
            have hcl : Defaults.cloned s (some (.val s.ty v)) = .ok (some (.val s.ty v)) := by
              simp [Defaults.cloned, vtClone_val hs]
            simp only [hcl, CProg.lift_ok, CProg.bind_ret, readAs_val hs]
            trivial
    | relation a b q s =>
      change CProg.Good _ _ _ ((CProg.lift (validate (E.layout s.ty))).bind fun _ => _)
      have hlift : CProg.Good okGet okPut (fun x => x = validate (E.layout s.ty))
          (CProg.lift (validate (E.layout s.ty)) : CProg E Q Ent Unit) := CProg.Good.lift rfl
      refine hlift.bind (fun u hu => ?_) (fun x hx => by
        have := hval (E.layout s.ty); rw [← hx] at this; exact this)
      have hs := hst hu.symm
      rw [J.queryRelationErased_eq]
      cases J.world.isStat a && J.world.isStat b with
      | false => trivial
      | true =>
        simp only [if_true, CProg.bind_eq, CProg.bind_assoc, CProg.bind_ret]
        obtain ⟨v0, hv0⟩ := hJ.startValue s hs
        rw [hv0]
        simp only [CProg.lift_ok, CProg.bind_ret]
        refine (callsCode_safe (hJ.relationCalls a b q) (p := ⟨s, .val s.ty v0⟩) ⟨v0, rfl⟩ ih
          (X := (· ≠ .ub)) (fun _ h => h)
          (fun c hc p => hS.imp_right fun h => h.relation a b q c hc p)).bind (fun p hp => ?_) (fun _ h => h)
        exact CProg.Good.lift (hread hs hp.1 hp.2)
    | attr e a =>
      change CProg.Good _ _ _ (J.hasAttributeErased _ e a)
      rw [J.hasAttributeErased_eq]
      exact anyCode_safe (hJ.attrCalls e a) ih (fun _ h => h) (fun c hc => hS.imp_right fun h => h.attr e a c hc)

end BSQ
