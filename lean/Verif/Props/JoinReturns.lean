import Verif.Spec.JoinReturns
import Verif.Props.Join
/-!
# C44: when a query returns, in every order of its sources
-/
namespace BSQ
set_option linter.unusedSectionVars false
open Contrib
variable {E : Env} {Q Ent α : Type} {A : Addr E} {J J' : Joined E Q Ent}

theorem runCalls_returns {o : Oracle E Q Ent} {s : StatInst E} {okOp : StatOp s.sv → Prop}
    {Fits : List (StatOp s.sv) → Prop} (hF : Hereditary Fits)
    {cs : List (Call E Q Ent)} {Cs : List (Prog E Q Ent (List (StatOp s.sv)))}
    (h : List.Forall₂ (fun c C => Call.Contributes s okOp c C ∧ Call.Reliable s okOp Fits c C) cs Cs)
    {opss : List (List (StatOp s.sv))} (ho : List.Forall₂ (fun C ops => Prog.eval o C = .ok ops) Cs opss)
    {v : s.Val} {L : List (StatOp s.sv)} (hv : Assembles s.sv okOp v L) (hf : Fits (L ++ opss.flatten)) :
    ∃ v', runCalls o cs ⟨s, .val s.ty v⟩ = .ok ⟨s, .val s.ty v'⟩ ∧ Assembles s.sv okOp v' (L ++ opss.flatten) := by
  induction h generalizing v L opss with
  | nil =>
    cases ho
    exact ⟨v, rfl, by simpa using hv⟩
  | cons hc _ ih =>
    cases ho with
    | @cons _ ops _ opss hC ho =>
      rw [List.flatten_cons] at hf
      obtain ⟨p', hp⟩ := hc.2 o v L ops hv hC (hF _ _ (by
        rw [← List.append_assoc]; exact (List.sublist_append_left _ _).subperm) hf)
      obtain ⟨ops', v1, h1, rfl, h2⟩ := hc.1 o v L p' hv hp
      rw [hC] at h1
      cases h1
      obtain ⟨v', h3, h4⟩ := ih ho h2 (by rwa [List.append_assoc])
      refine ⟨v', ?_, by rw [List.flatten_cons, ← List.append_assoc]; exact h4⟩
      rw [runCalls, hp, Res.bind_ok, h3]

theorem forall₂_eval {o : Oracle E Q Ent} {Cs : List (Prog E Q Ent α)}
    (h : ∀ C ∈ Cs, ∃ a, C.eval o = .ok a) : ∃ l, List.Forall₂ (fun C a => Prog.eval o C = .ok a) Cs l :=
  forall₂_of_forall Cs h

theorem forall₂_left {β γ : Type*} {R : β → γ → Prop} {l : List β} {m : List γ} (h : List.Forall₂ R l m) :
    ∀ x ∈ l, ∃ y ∈ m, R x y := by
  induction h with
  | nil => intro x hx; cases hx
  | cons hx _ ih =>
    intro x hm
    cases hm with
    | head => exact ⟨_, List.mem_cons_self, hx⟩
    | tail _ hm =>
      obtain ⟨y, hy, h⟩ := ih x hm
      exact ⟨y, List.mem_cons_of_mem _ hy, h⟩

theorem runCalls_iff {o : Oracle E Q Ent} {s : StatInst E} {okOp : StatOp s.sv → Prop}
    {Fits : List (StatOp s.sv) → Prop} (hF : Hereditary Fits)
    {cs : List (Call E Q Ent)} {Cs : List (Prog E Q Ent (List (StatOp s.sv)))}
    (h : List.Forall₂ (fun c C => Call.Contributes s okOp c C ∧ Call.Reliable s okOp Fits c C) cs Cs)
    {v : s.Val} {L : List (StatOp s.sv)} (hv : Assembles s.sv okOp v L)
    (hf : ∀ opss, List.Forall₂ (fun C ops => Prog.eval o C = .ok ops) Cs opss → Fits (L ++ opss.flatten)) :
    (∃ p, runCalls o cs ⟨s, .val s.ty v⟩ = .ok p) ↔ ∀ C ∈ Cs, ∃ ops, C.eval o = .ok ops := by
  constructor
  · rintro ⟨p, hp⟩ C hC
    obtain ⟨opss, v', h3, -, -⟩ := runCalls_assembles (h.imp fun _ _ h => h.1) hv hp
    obtain ⟨ops, -, h⟩ := forall₂_left h3 C hC
    exact ⟨ops, h⟩
  · intro hC
    obtain ⟨opss, ho⟩ := forall₂_eval hC
    obtain ⟨v', h1, -⟩ := runCalls_returns hF h ho hv (hf opss ho)
    exact ⟨_, h1⟩

/-- C44: under these conditions a query returns exactly if each source can compute what it contributes, and the
result is assembled from all of it.  (Sources that panic or recurse without end are the only reasons for a
query not to return.) -/
theorem C44_returns_iff {good : StatInst E → Prop} (n : Nat) (e : Ent) (q : QualifierQuery Q) (s : StatInst E)
    (okOp : StatOp s.sv → Prop) (Fits : List (StatOp s.sv) → Prop) (hF : Hereditary Fits) (v : s.Val)
    (L : List (StatOp s.sv)) (Cs : List (Prog E Q Ent (List (StatOp s.sv))))
    (hs : Storable (E.layout s.ty)) (he : J.world.isStat e = true)
    (hv : J.world.startValue A s = .ok (.val s.ty v)) (hL : Assembles s.sv okOp v L)
    (h : Supplied J A good s okOp Fits L (J.statCalls e q) Cs) :
    ((∃ x, J.answer A (n + 1) (.stat e q s) = .ok x) ↔ ∀ C ∈ Cs, ∃ ops, C.eval (J.answer A n) = .ok ops) ∧
    ∀ opss, List.Forall₂ (fun C ops => Prog.eval (J.answer A n) C = .ok ops) Cs opss →
      ∃ v', J.answer A (n + 1) (.stat e q s) = .ok (some v') ∧ Assembles s.sv okOp v' (L ++ opss.flatten) := by
  have key : ∀ opss, List.Forall₂ (fun C ops => Prog.eval (J.answer A n) C = .ok ops) Cs opss →
      ∃ v', J.answer A (n + 1) (.stat e q s) = .ok (some v') ∧
        Assembles s.sv okOp v' (L ++ opss.flatten) := by
    intro opss ho
    obtain ⟨v', h1, h2⟩ := runCalls_returns hF (h.calls.imp fun _ _ h => ⟨h.1, h.2.1⟩) ho hL
      (h.fits n opss ho)
    refine ⟨v', ?_, h2⟩
    rw [Joined.answer_body hs he, Joined.body, hv, Res.bind_ok, h1, Res.bind_ok]
    change (Buf.val s.ty v').read s.ty >>= _ = _
    rw [Buf.read_val hs]
    rfl
  refine ⟨⟨?_, fun hC => ?_⟩, key⟩
  · rintro ⟨x, hx⟩ C hC
    obtain ⟨opss, v', -, h3, -⟩ := C44_assembled n e q s okOp v L hs he hv hL Cs
      (h.calls.imp fun _ _ h => h.1) x hx
    obtain ⟨ops, -, h⟩ := forall₂_left h3 C hC
    exact ⟨ops, h⟩
  · obtain ⟨opss, ho⟩ := forall₂_eval hC
    obtain ⟨v', h1, -⟩ := key opss ho
    exact ⟨_, h1⟩

theorem Prog.eval_congr {R : Req E Q Ent → Prop} {o o' : Oracle E Q Ent}
    (ho : ∀ r, R r → ∀ x, o r = .ok x ↔ o' r = .ok x)
    (p : Prog E Q Ent α) (hp : p.Trusts R) (a : α) : p.eval o = .ok a ↔ p.eval o' = .ok a := by
  induction p with
  | ret a => exact Iff.rfl
  | fail e => exact Iff.rfl
  | ask r k ih =>
    rw [Prog.eval, Prog.eval, Res.bind_eq_ok, Res.bind_eq_ok]
    constructor
    · rintro ⟨x, h1, h2⟩
      exact ⟨x, (ho r hp.1 x).1 h1, (ih x (hp.2 x)).1 h2⟩
    · rintro ⟨x, h1, h2⟩
      exact ⟨x, (ho r hp.1 x).2 h1, (ih x (hp.2 x)).2 h2⟩
  | attempt r k ih => exact hp.elim
  | clear k ih => exact ih hp
  | store e q p k ih =>
    rw [Prog.eval, Prog.eval, Res.bind_eq_ok, Res.bind_eq_ok]
    exact exists_congr fun _ => and_congr_right fun _ => ih hp

theorem anyCalls_ret {o : Oracle E Q Ent} (l : List (Prog E Q Ent Bool)) (h : ∀ c ∈ l, ∃ b, c = .ret b) :
    ∃ b, anyCalls o l = .ok b := by
  induction l with
  | nil => exact ⟨false, rfl⟩
  | cons c l ih =>
    obtain ⟨b, rfl⟩ := h c List.mem_cons_self
    cases b with
    | true => exact ⟨true, rfl⟩
    | false => exact ih (fun c hc => h c (List.mem_cons_of_mem _ hc))

theorem Joined.AllSupplied.contributing {good : StatInst E → Prop} {okOp : (s : StatInst E) → StatOp s.sv → Prop}
    {Fits : (s : StatInst E) → List (StatOp s.sv) → Prop} (h : J.AllSupplied A good okOp Fits) :
    J.Contributing A good okOp where
  start s b hg hb := by
    obtain ⟨v, L, h1, h2, -⟩ := h.value s hg
    rw [h1] at hb
    cases hb
    exact ⟨v, L, rfl, h2⟩
  stat e q s hg c hc := by
    obtain ⟨v, L, -, -, h1, -⟩ := h.value s hg
    obtain ⟨Cs, hS⟩ := h1 e q
    obtain ⟨C, -, h1, -, h2⟩ := forall₂_left hS.calls c hc
    exact ⟨C, h1, h2⟩
  relation a b q s hg c hc := by
    obtain ⟨v, L, -, -, -, h1⟩ := h.value s hg
    obtain ⟨Cs, hS⟩ := h1 a b q
    obtain ⟨C, -, h1, -, h2⟩ := forall₂_left hS.calls c hc
    exact ⟨C, h1, h2⟩
  attr e a c hc := by
    obtain ⟨b, rfl⟩ := h.attr e a c hc
    trivial

/-- C44: under these conditions the order of sources and of children decides neither whether a query returns nor
what: at every recursion depth, two queriers with the same sources in different orders return the same -/
theorem C44_any_order {good : StatInst E → Prop} {okOp : (s : StatInst E) → StatOp s.sv → Prop}
    {Fits : (s : StatInst E) → List (StatOp s.sv) → Prop} (hJ : SameSources J J')
    (hS : J.AllSupplied A good okOp Fits) (hu : ∀ s, good s → Unordered s.sv (okOp s)) (n : Nat)
    (r : Req E Q Ent) (hr : Req.About good r) (x : r.Resp) :
    J.answer A n r = .ok x ↔ J'.answer A n r = .ok x := by
  have hstart : ∀ s, J'.world.startValue A s = J.world.startValue A s := by
    intro s
    simp only [World.startValue, World.registered, hJ.defaults]
  have hag : ∀ n r, Req.About good r → Agree (J.answer A n r) (J'.answer A n r) :=
    fun n r hr => C44_order hJ hS.contributing hu n n r hr
  suffices hret : (∃ x, J.answer A n r = .ok x) ↔ ∃ x, J'.answer A n r = .ok x by
    constructor
    · intro h
      obtain ⟨y, hy⟩ := hret.1 ⟨x, h⟩
      rw [hag n r hr x y h hy, hy]
    · intro h
      obtain ⟨y, hy⟩ := hret.2 ⟨x, h⟩
      rw [← hag n r hr y x hy h, hy]
  clear x
  induction n generalizing r with
  | zero => simp only [J.answer_zero, J'.answer_zero]
  | succ n ih =>
    have ho : ∀ r, Req.About good r → ∀ x, J.answer A n r = .ok x ↔ J'.answer A n r = .ok x := by
      intro r hr x
      constructor
      · intro h
        obtain ⟨y, hy⟩ := (ih r hr).1 ⟨x, h⟩
        rw [hag n r hr x y h hy, hy]
      · intro h
        obtain ⟨y, hy⟩ := (ih r hr).2 ⟨x, h⟩
        rw [← hag n r hr y x hy h, hy]
    have hrun : ∀ (s : StatInst E) (v : s.Val) (L : List (StatOp s.sv)) (cs cs' : List (Call E Q Ent))
        (Cs : List (Prog E Q Ent (List (StatOp s.sv)))), good s → cs.Perm cs' →
        J.world.startValue A s = .ok (.val s.ty v) → Assembles s.sv (okOp s) v L →
        Supplied J A good s (okOp s) (Fits s) L cs Cs →
        ((∃ x, (do
              let v ← J.world.startValue A s
              let p ← runCalls (J.answer A n) cs ⟨s, v⟩
              let x ← p.value.read s.ty
              (.ok (some x) : Res (Option s.Val))) = .ok x) ↔
          ∃ x, (do
              let v ← J.world.startValue A s
              let p ← runCalls (J'.answer A n) cs' ⟨s, v⟩
              let x ← p.value.read s.ty
              (.ok (some x) : Res (Option s.Val))) = .ok x) := by
      intro s v L cs cs' Cs hg hp hv hL hSu
      have hread : ∀ (o : Oracle E Q Ent) (cs : List (Call E Q Ent))
          (Cs : List (Prog E Q Ent (List (StatOp s.sv)))),
          List.Forall₂ (fun c C => Call.Contributes s (okOp s) c C) cs Cs →
          ((∃ x, (do
              let v ← J.world.startValue A s
              let p ← runCalls o cs ⟨s, v⟩
              let x ← p.value.read s.ty
              (.ok (some x) : Res (Option s.Val))) = .ok x) ↔
            ∃ p, runCalls o cs ⟨s, .val s.ty v⟩ = .ok p) := by
        intro o cs Cs hc
        rw [hv, Res.bind_ok]
        constructor
        · rintro ⟨x, hx⟩
          obtain ⟨p, h1, -⟩ := Res.bind_eq_ok.1 hx
          exact ⟨p, h1⟩
        · rintro ⟨p, h1⟩
          obtain ⟨opss, w, -, rfl, -⟩ := runCalls_assembles hc hL h1
          refine ⟨some w, ?_⟩
          rw [h1, Res.bind_ok]
          change (Buf.val s.ty w).read s.ty >>= _ = _
          rw [Buf.read_val (hS.storable s hg)]
          rfl
      obtain ⟨Cs', hCs', hperm⟩ := forall₂_perm hp hSu.calls
      have hev : ∀ C ∈ Cs, ∀ ops, C.eval (J.answer A n) = .ok ops ↔ C.eval (J'.answer A n) = .ok ops := by
        intro C hC ops
        obtain ⟨c, -, -, -, h3⟩ := forall₂_exists hSu.calls C hC
        exact Prog.eval_congr ho C h3 ops
      rw [hread _ _ _ (hSu.calls.imp fun _ _ h => h.1), hread _ _ _ (hCs'.imp fun _ _ h => h.1),
        runCalls_iff (hS.hereditary s hg) (hSu.calls.imp fun _ _ h => ⟨h.1, h.2.1⟩) hL (hSu.fits n),
        runCalls_iff (hS.hereditary s hg) (hCs'.imp fun _ _ h => ⟨h.1, h.2.1⟩) hL]
      · constructor
        · intro h C hC
          obtain ⟨ops, h1⟩ := h C (hperm.mem_iff.2 hC)
          exact ⟨ops, (hev C (hperm.mem_iff.2 hC) ops).1 h1⟩
        · intro h C hC
          obtain ⟨ops, h1⟩ := h C (hperm.mem_iff.1 hC)
          exact ⟨ops, (hev C hC ops).2 h1⟩
      · intro opss' h'
        obtain ⟨opss, h1, h2⟩ := forall₂_perm hperm.symm h'
        have h3 : List.Forall₂ (fun C ops => Prog.eval (J.answer A n) C = .ok ops) Cs opss := by
          have : ∀ (l : List (Prog E Q Ent (List (StatOp s.sv)))) (m : List (List (StatOp s.sv))),
              (∀ C ∈ l, C ∈ Cs) → List.Forall₂ (fun C ops => Prog.eval (J'.answer A n) C = .ok ops) l m →
              List.Forall₂ (fun C ops => Prog.eval (J.answer A n) C = .ok ops) l m := by
            intro l m hl hm
            induction hm with
            | nil => exact .nil
            | cons hx _ ih =>
              exact .cons ((hev _ (hl _ List.mem_cons_self) _).2 hx)
                (ih fun C hC => hl C (List.mem_cons_of_mem _ hC))
          exact this Cs opss (fun _ h => h) h1
        exact hS.hereditary s hg _ _ ((List.Perm.refl L).append h2.flatten).subperm (hSu.fits n opss h3)
    rw [J.answer_succ, J'.answer_succ]
    cases r with
    | stat e q s =>
      obtain ⟨v, L, hv, hL, h1, -⟩ := hS.value s hr
      obtain ⟨Cs, hSu⟩ := h1 e q
      simp only [Joined.ideal, ← hJ.isStat, hstart, validate_eq, hS.storable s hr, if_true, Res.bind_ok]
      cases J.world.isStat e with
      | false => exact Iff.rfl
      | true => exact hrun s v L _ _ Cs hr (hJ.statCalls e q) hv hL hSu
    | relation a b q s =>
      obtain ⟨v, L, hv, hL, -, h1⟩ := hS.value s hr
      obtain ⟨Cs, hSu⟩ := h1 a b q
      simp only [Joined.ideal, ← hJ.isStat, hstart, validate_eq, hS.storable s hr, if_true, Res.bind_ok]
      cases J.world.isStat a && J.world.isStat b with
      | false => exact Iff.rfl
      | true => exact hrun s v L _ _ Cs hr (hJ.relationCalls a b q) hv hL hSu
    | attr e a =>
      refine iff_of_true (anyCalls_ret _ (hS.attr e a)) (anyCalls_ret _ fun c hc => ?_)
      exact hS.attr e a c ((hJ.attrCalls e a).mem_iff.2 hc)

/-! ### sources that go through when everything fits -/

/-- a call that applies one operation goes through as long as everything fits -/
theorem Call.Reliable.op {s : StatInst E} {okOp : StatOp s.sv → Prop} {Fits : List (StatOp s.sv) → Prop}
    (hR : Returns s.sv okOp Fits) (hF : Hereditary Fits) {c : Call E Q Ent} {x : StatOp s.sv} (hb : ¬ x.IsBase)
    (hx : okOp x)
    (hc : ∀ o v, (c ⟨s, .val s.ty v⟩).eval o = (x.writeTo v >>= fun v' => .ok ⟨s, .val s.ty v'⟩)) :
    c.Contributes s okOp (.ret [x]) ∧ c.Reliable s okOp Fits (.ret [x]) := by
  refine ⟨fun o v L p' hv hp => ?_, fun o v L ops hv hops hf => ?_⟩
  · rw [hc o v] at hp
    obtain ⟨v', h1, h2⟩ := Res.bind_eq_ok.1 hp
    cases h2
    exact ⟨_, v', rfl, rfl, hv.op hb hx h1⟩
  · cases hops
    obtain ⟨t, t1, t2, t3, t4⟩ := hv
    obtain ⟨w, hw⟩ := hR (.op t x) ⟨t1, hb⟩ (by
      intro y hy
      rcases List.mem_append.1 hy with hy | hy
      · exact t2 y hy
      · cases List.mem_singleton.1 hy; exact hx) (hF _ _ (t3.append (.refl [x])).subperm hf)
    rw [Tree.run, t4, Res.bind_ok] at hw
    exact ⟨_, by rw [hc o v, hw]; rfl⟩

theorem Assembles.joinList_returns {V : Type} {D : StatValue V} {okOp : StatOp D → Prop}
    {Fits : List (StatOp D) → Prop} (hR : Returns D okOp Fits) (hF : Hereditary Fits) {l : List V}
    {opss : List (List (StatOp D))} (h : List.Forall₂ (fun w ops => Assembles D okOp w ops) l opss) {v : V}
    {L : List (StatOp D)} (hv : Assembles D okOp v L) (hf : Fits (L ++ opss.flatten)) :
    ∃ x, BSQ.joinList D v l = .ok x := by
  induction h generalizing v L with
  | nil => exact ⟨v, rfl⟩
  | @cons w ops _ opss hw _ ih =>
    rw [List.flatten_cons, ← List.append_assoc] at hf
    have hf' := hF _ _ (List.sublist_append_left (L ++ ops) opss.flatten).subperm hf
    obtain ⟨y, hy⟩ : ∃ y, D.join v w = .ok y := by
      obtain ⟨t, t1, t2, t3, t4⟩ := hv
      obtain ⟨u, u1, u2, u3, u4⟩ := hw
      obtain ⟨y, hy⟩ := hR (.join t u) ⟨t1, u1⟩ (by
        intro y hy
        rcases List.mem_append.1 hy with hy | hy
        · exact t2 y hy
        · exact u2 y hy) (hF _ _ (t3.append u3).subperm hf')
      rw [Tree.run, t4, Res.bind_ok, u4, Res.bind_ok] at hy
      exact ⟨y, hy⟩
    obtain ⟨x, hx⟩ := ih (hv.join hw hy) hf
    exact ⟨x, by rw [BSQ.joinList, hy, Res.bind_ok, hx]⟩

/-- a call that joins assembled values, such as a `StatMap`, goes through as long as everything fits -/
theorem Call.Reliable.joins {s : StatInst E} {okOp : StatOp s.sv → Prop} {Fits : List (StatOp s.sv) → Prop}
    (hR : Returns s.sv okOp Fits) (hF : Hereditary Fits) {c : Call E Q Ent} {l : List s.Val}
    {opss : List (List (StatOp s.sv))} (hc : ∀ o, Call.Joins o s c l)
    (h : List.Forall₂ (fun w ops => Assembles s.sv okOp w ops) l opss) :
    c.Contributes s okOp (.ret opss.flatten) ∧ c.Reliable s okOp Fits (.ret opss.flatten) := by
  refine ⟨Call.Contributes.joins hc h, fun o v L ops hv hops hf => ?_⟩
  cases hops
  obtain ⟨x, hx⟩ := hv.joinList_returns hR hF h hf
  exact ⟨_, by rw [hc o v, hx]; rfl⟩

/-! ### integers -/

theorem Contrib.absTotal_perm {L K : List (Contrib Int Int Int)} (h : L.Perm K) : absTotal L = absTotal K := by
  induction h with
  | nil => rfl
  | cons c _ ih => cases c <;> simp only [absTotal, ih]
  | swap c d l => cases c <;> cases d <;> (simp only [absTotal]; try omega)
  | trans _ _ h1 h2 => rw [h1, h2]

theorem Contrib.absProduct_perm {L K : List (Contrib Int Int Int)} (h : L.Perm K) :
    absProduct L = absProduct K := by
  induction h with
  | nil => rfl
  | cons c _ ih => cases c <;> simp only [absProduct, ih]
  | swap c d l => cases c <;> cases d <;> (simp only [absProduct]; try ring)
  | trans _ _ h1 h2 => rw [h1, h2]

/-- the magnitudes of the operands multiply out within the type, as in `C16_no_overflow` -/
def statInt.Fits (t : NumTy) (L : List (StatOp (statInt t))) : Prop :=
  absTotal (L.map statInt.contrib) ≤ t.prim.hi ∧ absProduct (L.map statInt.contrib) ≤ t.prim.hi ∧
  absTotal (L.map statInt.contrib) * absProduct (L.map statInt.contrib) ≤ t.prim.hi

theorem statInt.fits_hereditary (t : NumTy) : Hereditary (statInt.Fits t) := by
  rintro L M hM ⟨h1, h2, h3⟩
  obtain ⟨M', hM', hsub⟩ := hM
  obtain ⟨K, hK⟩ := hsub.exists_perm_append
  replace hK := hK.trans (hM'.append (.refl K))
  have hp := hK.map (statInt.contrib (t := t))
  rw [absTotal_perm hp, List.map_append, absTotal_append] at h1 h3
  rw [absProduct_perm hp, List.map_append, absProduct_append] at h2 h3
  have a1 := absTotal_nonneg (M.map statInt.contrib)
  have a2 := absTotal_nonneg (K.map statInt.contrib)
  have b1 := absProduct_pos (M.map statInt.contrib)
  have b2 := absProduct_pos (K.map statInt.contrib)
  refine ⟨by omega, by nlinarith, ?_⟩
  refine le_trans ?_ h3
  apply mul_le_mul (by omega) (by nlinarith) (by omega) (by omega)

theorem statInt.returns (t : NumTy) (h : t.ovf = .panic) :
    Returns (statInt t) (fun o => t.prim.InRange (statInt.contrib o).num) (statInt.Fits t) := by
  intro tr h1 h2 h3
  obtain ⟨v, hv, -⟩ := C16_no_overflow t h tr h1 h2 h3.1 h3.2.1 h3.2.2
  exact ⟨v, hv⟩

section
variable {X : (V : Type) × StatValue V} {t : NumTy} (h : X = ⟨StatInt, statInt t⟩)
/-- an operation read as what it is -/
def intOp (o : StatOp X.2) : StatOp (statInt t) :=
  cast (congrArg (fun x : (V : Type) × StatValue V => StatOp x.2) h) o

theorem int_closed (ht : t.ovf = .panic) (v : X.1) (L : List (StatOp X.2))
    (hv : Assembles X.2 (fun o => t.prim.InRange (statInt.contrib (intOp h o)).num) v L)
    (hf : statInt.Fits t (L.map (intOp h))) :
    let C := (L.map (intOp h)).map statInt.contrib
    ∃ out, X.2.eval v = .ok out ∧
      intOut h out = clampTo (total C * product C) (floorOf t.prim.lo C) (capOf t.prim.hi C) := by
  subst h
  have hid : L.map (intOp (rfl : (⟨StatInt, statInt t⟩ : (V : Type) × StatValue V) = _)) = L :=
    List.map_id L
  rw [hid] at hf ⊢
  obtain ⟨tr, t1, t2, t3, t4⟩ := hv
  have hf' := statInt.fits_hereditary t _ _ t3.subperm hf
  obtain ⟨w, hw, he⟩ := C16_no_overflow t ht tr t1 t2 hf'.1 hf'.2.1 hf'.2.2
  cases t4.symm.trans hw
  refine ⟨_, he, ?_⟩
  have hp := t3.map (statInt.contrib (t := t))
  change clampTo _ _ _ = _
  rw [Contrib.total_perm hp, Contrib.product_perm hp, Contrib.floorOf_perm _ hp,
    Contrib.capOf_perm _ hp]
end

/-- C44: a query about a `StatInt` of a checked type, end to end: when the sources can compute what they
contribute and its magnitudes multiply out within the type, the query returns, and the result evaluates to the
sum of all addends times the product of all multipliers, clamped -/
theorem C44_int {good : StatInst E → Prop} {t : NumTy} (ht : t.ovf = .panic) (n : Nat) (e : Ent)
    (q : QualifierQuery Q) (s : StatInst E) (hE : IsStatInt s t) (v : s.Val) (L : List (StatOp s.sv))
    (Cs : List (Prog E Q Ent (List (StatOp s.sv)))) (hs : Storable (E.layout s.ty))
    (he : J.world.isStat e = true) (hv : J.world.startValue A s = .ok (.val s.ty v))
    (hL : Assembles s.sv (fun o => t.prim.InRange (statInt.contrib (intOp hE o)).num) v L)
    (h : Supplied J A good s (fun o => t.prim.InRange (statInt.contrib (intOp hE o)).num)
      (fun L => statInt.Fits t (L.map (intOp hE))) L (J.statCalls e q) Cs)
    (opss : List (List (StatOp s.sv)))
    (ho : List.Forall₂ (fun C ops => Prog.eval (J.answer A n) C = .ok ops) Cs opss) :
    let C := ((L ++ opss.flatten).map (intOp hE)).map statInt.contrib
    ∃ v' out, J.answer A (n + 1) (.stat e q s) = .ok (some v') ∧ s.sv.eval v' = .ok out ∧
      intOut hE out = clampTo (total C * product C) (floorOf t.prim.lo C) (capOf t.prim.hi C) := by
  have hF : Hereditary (fun L : List (StatOp s.sv) => statInt.Fits t (L.map (intOp hE))) :=
    fun L M ⟨K, h1, h2⟩ hf => statInt.fits_hereditary t (L.map (intOp hE)) _ ⟨_, h1.map _, h2.map _⟩ hf
  obtain ⟨v', h1, h2⟩ := (C44_returns_iff n e q s _ _ hF v L Cs hs he hv hL h).2 opss ho
  obtain ⟨out, h3, h4⟩ := int_closed hE ht v' (L ++ opss.flatten) h2 (h.fits n opss ho)
  exact ⟨v', out, h1, h3, h4⟩

/-! ### the hypotheses can be met -/

/-- operations on the integer stats of the demo that are small -/
def demoFits : (s : StatInst demo) → List (StatOp s.sv) → Prop
  | ⟨true, _⟩ => statInt.Fits ⟨.i32, .prim, .debug⟩
  | ⟨false, _⟩ => fun _ => True

theorem demoAdd_reliable (k : Int) (hk : IntTy.i32.InRange k) (i : Nat) :
    Call.Contributes (Ent := Nat) (Q := BitVec 8) (demoInt i) (demoOk (demoInt i)) (demoAdd k) (.ret [.add k]) ∧
    Call.Reliable (Ent := Nat) (Q := BitVec 8) (demoInt i) (demoOk (demoInt i)) (demoFits (demoInt i))
      (demoAdd k) (.ret [.add k]) :=
  Call.Reliable.op (s := demoInt i) (okOp := demoOk (demoInt i)) (Fits := demoFits (demoInt i))
    (statInt.returns _ rfl) (statInt.fits_hereditary _) (x := .add k) (fun h => h) hk (fun o v => by
    change StatInt at v
    change (Prog.lift ((demoSv true).add v k >>= fun v' =>
      .ok (Pair.write ⟨demoInt i, .val true v⟩ true v'))).eval o = _
    change _ = ((demoSv true).add v k >>= fun v' => _)
    cases (demoSv true).add v k <;> rfl)

/-- adding `k` -/
def demoAddOp (k : Int) : StatOp (demoSv true) := .add k

/-- calls that add `ks` supply a query, if the sum of their magnitudes is small -/
theorem demo_supplied (i : Nat) (L : List (StatOp (demoSv true))) (calls : List DCall) (ks : List Int)
    (hc : List.Forall₂ (fun c k => c = demoAdd k ∧ IntTy.i32.InRange k) calls ks)
    (hf : demoFits (demoInt i) (L ++ ks.map demoAddOp)) (J : Joined demo (BitVec 8) Nat) :
    Supplied J demoAddr (fun s => s.vt = true) (demoInt i) (demoOk (demoInt i)) (demoFits (demoInt i)) L calls
      (ks.map fun k => .ret [demoAddOp k]) where
  calls := by
    clear hf
    induction hc with
    | nil => exact .nil
    | cons h _ ih =>
      obtain ⟨rfl, hk⟩ := h
      obtain ⟨h1, h2⟩ := demoAdd_reliable _ hk i
      exact .cons ⟨h1, h2, trivial⟩ ih
  fits n opss ho := by
    have : opss.flatten = ks.map demoAddOp := by
      clear hf hc
      induction ks generalizing opss with
      | nil => cases ho; rfl
      | cons k ks ih =>
        cases ho with
        | cons h ho =>
          cases h
          rw [List.flatten_cons, ih _ ho]
          rfl
    rw [this]
    exact hf

theorem demoPlus_calls (k : Int) (hk : IntTy.i32.InRange k) (e : Nat) (q : QualifierQuery (BitVec 8))
    (es : List Nat) : ∃ m ≤ es.length, List.Forall₂ (fun c k => c = demoAdd k ∧ IntTy.i32.InRange k)
      ((demoPlus k).calls e q es) (List.replicate m k) := by
  unfold CStream.calls
  refine ⟨_, List.length_filterMap_le (demoPlus k).query es, ?_⟩
  generalize es.filterMap (demoPlus k).query = l
  induction l with
  | nil => exact .nil
  | cons x l ih => exact .cons ⟨rfl, hk⟩ ih

theorem demo_fits (i : Nat) (L : List (StatOp (demoSv true))) (hL : absTotal (L.map statInt.contrib) ≤ 7)
    (hL' : absProduct (L.map statInt.contrib) = 1) (m1 m2 m3 m4 : Nat) (h1 : m1 ≤ 1) (h2 : m2 ≤ 1) (h3 : m3 ≤ 2)
    (h4 : m4 ≤ 1) :
    demoFits (demoInt i) (L ++ ([1] ++ (List.replicate m1 1 ++ List.replicate m2 2) ++ List.replicate m4 4 ++
      List.replicate m3 3 : List Int).map demoAddOp) := by
  have hr : ∀ (m : Nat) (k : Int), absTotal ((List.replicate m k).map fun k =>
      statInt.contrib (demoAddOp k)) = m * k.natAbs ∧
      absProduct ((List.replicate m k).map fun k => statInt.contrib (demoAddOp k)) = 1 := by
    intro m k
    induction m with
    | zero => exact ⟨by simp [absTotal], rfl⟩
    | succ m ih =>
      rw [List.replicate_succ, List.map_cons]
      refine ⟨?_, ih.2⟩
      change (k.natAbs : Int) + absTotal _ = _
      rw [ih.1]
      push_cast
      ring
  have e : ∀ l : List Int, (l.map demoAddOp).map statInt.contrib =
      l.map fun k => statInt.contrib (demoAddOp k) := fun l => List.map_map ..
  have a0 : absTotal ([(1 : Int)].map fun k => statInt.contrib (demoAddOp k)) = 1 := rfl
  have b0 : absProduct ([(1 : Int)].map fun k => statInt.contrib (demoAddOp k)) = 1 := rfl
  change statInt.Fits ⟨.i32, .prim, .debug⟩ _
  have hi : (⟨.i32, .prim, .debug⟩ : NumTy).prim.hi = 2147483647 := rfl
  unfold statInt.Fits
  rw [List.map_append, e, hi]
  simp only [List.map_append, absTotal_append, absProduct_append, (hr _ _).1, (hr _ _).2, hL', a0, b0]
  norm_num
  omega

theorem demoSum_supplied : demoSum.AllSupplied demoAddr (fun s => s.vt = true) demoOk demoFits where
  storable s hg := by obtain ⟨vt, i⟩ := s; cases hg; exact (by decide : Storable ⟨16, 8⟩)
  hereditary s hg := by obtain ⟨vt, i⟩ := s; cases hg; exact statInt.fits_hereditary _
  value s hg := by
    obtain ⟨vt, i⟩ := s
    cases hg
    have hcalls : ∀ L : List (StatOp (demoSv true)), absTotal (L.map statInt.contrib) ≤ 7 →
        absProduct (L.map statInt.contrib) = 1 →
        (∀ e q, ∃ Cs, Supplied demoSum demoAddr (fun s => s.vt = true) (demoInt i) (demoOk (demoInt i))
          (demoFits (demoInt i)) L (demoSum.statCalls e q) Cs) ∧
        (∀ a b q, ∃ Cs, Supplied demoSum demoAddr (fun s => s.vt = true) (demoInt i) (demoOk (demoInt i))
          (demoFits (demoInt i)) L (demoSum.relationCalls a b q) Cs) := by
      intro L hL hL'
      refine ⟨fun e q => ?_, fun a b q => ?_⟩
      · have hch : ((demoSum.world.children e).getD []).length ≤ 2 := by
          change ((demoWorld.children e).getD []).length ≤ 2
          unfold demoWorld
          dsimp only
          split_ifs <;> decide
        obtain ⟨m1, h1, c1⟩ := demoPlus_calls 1 (by decide) e q [e]
        obtain ⟨m2, h2, c2⟩ := demoPlus_calls 2 (by decide) e q [e]
        obtain ⟨m4, h4, c4⟩ := demoPlus_calls 4 (by decide) e q [e]
        obtain ⟨m3, h3, c3⟩ := demoPlus_calls 3 (by decide) e q ((demoSum.world.children e).getD [])
        refine ⟨_, demo_supplied i L _ _ ?_ (demo_fits i L hL hL' m1 m2 m3 m4 h1 h2 (h3.trans hch) h4) _⟩
        have : demoSum.statCalls e q = [demoAdd 1] ++ ((demoPlus 1).calls e q [e] ++ (demoPlus 2).calls e q [e]) ++
            (demoPlus 4).calls e q [e] ++ (demoPlus 3).calls e q ((demoSum.world.children e).getD []) := by
          change [demoAdd 1] ++ ((demoPlus 1).calls e q [e] ++ ((demoPlus 2).calls e q [e] ++ [])) ++
            ((demoPlus 4).calls e q [e] ++ []) ++ ((demoPlus 3).calls e q _ ++ []) = _
          simp only [List.append_nil]
        rw [this]
        exact List.rel_append (List.rel_append (List.rel_append (.cons ⟨rfl, by decide⟩ .nil)
          (List.rel_append c1 c2)) c4) c3
      · have hrel : ∃ m ≤ 1, List.Forall₂ (fun c k => c = demoAdd k ∧ IntTy.i32.InRange k)
            ((demoPlus 4).relationCalls a b q) (List.replicate m 4) := by
          unfold CStream.relationCalls
          split
          · exact ⟨1, le_refl _, .cons ⟨rfl, by decide⟩ .nil⟩
          · exact ⟨0, by omega, .nil⟩
        obtain ⟨m4, h4, c4⟩ := hrel
        refine ⟨_, demo_supplied i L _ _ ?_ (demo_fits i L hL hL' 0 0 0 m4 (by omega) (by omega) (by omega) h4) _⟩
        have : demoSum.relationCalls a b q = [demoAdd 1] ++ ([] ++ []) ++ (demoPlus 4).relationCalls a b q ++ [] := by
          change [demoAdd 1] ++ ((demoPlus 4).relationCalls a b q ++ []) = _
          simp only [List.append_nil]
        rw [this]
        exact List.rel_append (List.rel_append (List.rel_append (.cons ⟨rfl, by decide⟩ .nil)
          (List.rel_append .nil .nil)) c4) .nil
    by_cases hi : i = 1
    · subst hi
      refine ⟨(⟨7, 0, 12, 1⟩ : StatInt), [.base (7 : Int), .min (0 : Int), .max (12 : Int)],
        (C44_start _ (demoInt 1) (by decide)).2.2 _ (⟨7, 0, 12, 1⟩ : StatInt) rfl rfl, ?_,
        hcalls _ (by decide) (by decide)⟩
      refine ⟨.op (.op (.base (7 : Int)) (.min (0 : Int))) (.max (12 : Int)), ⟨⟨trivial, id⟩, id⟩, ?_, .refl _, rfl⟩
      intro o ho
      simp only [Tree.leaves, List.mem_append, List.mem_singleton] at ho
      rcases ho with (rfl | rfl) | rfl <;> (unfold demoOk; decide)
    · have hg : HMap.get (StatInst.eq demoAddr)
          [(demoInt 1, (.val true (⟨7, 0, 12, 1⟩ : StatInt) : Buf demo))] (demoInt i) = none := by
        have : StatInst.eq demoAddr (demoInt 1) (demoInt i) = false := by
          rw [← Bool.not_eq_true, StatInst.eq_iff]
          intro h
          injection h with _ h
          exact hi h.symm
        simp [HMap.get, this]
      exact ⟨_, [], (C44_start _ (demoInt i) (show Storable ⟨16, 8⟩ by decide)).2.1 _ rfl hg,
        ⟨.dflt, trivial, fun x hx => (by cases hx), .refl _, rfl⟩, hcalls _ (by simp [absTotal]) rfl⟩
  attr e a c hc := by
    have hst : ∀ k es, ∀ c ∈ (demoPlus k).attrCalls e a es, ∃ b, c = .ret b := by
      intro k es c hc
      obtain ⟨it, _, rfl⟩ := List.mem_map.1 hc
      exact ⟨_, rfl⟩
    unfold Joined.attrCalls at hc
    simp only [List.mem_append] at hc
    rcases hc with (hc | hc) | hc
    · obtain ⟨st, h1, h2⟩ := List.mem_flatMap.1 hc
      change st ∈ [demoPlus 1, demoPlus 2] at h1
      simp only [List.mem_cons, List.not_mem_nil, or_false] at h1
      rcases h1 with rfl | rfl <;> exact hst _ _ c h2
    · obtain ⟨st, h1, h2⟩ := List.mem_flatMap.1 hc
      cases List.mem_singleton.1 h1
      exact hst _ _ c h2
    · split at hc
      · obtain ⟨st, h1, h2⟩ := List.mem_flatMap.1 hc
        cases List.mem_singleton.1 h1
        exact hst _ _ c h2
      · cases hc

/-- C44 on a concrete pair of queriers: both orders return the same, for every request about integers -/
example (n : Nat) (e : Nat) (q : QualifierQuery (BitVec 8)) (i : Nat) (x : Option StatInt) :
    demoSum.answer demoAddr n (.stat e q (demoInt i)) = .ok x ↔
      demoSum'.answer demoAddr n (.stat e q (demoInt i)) = .ok x :=
  C44_any_order demoSum_same demoSum_supplied
    (by
      rintro ⟨vt, i⟩ hg
      cases hg
      exact C16_unordered ⟨.i32, .prim, .debug⟩ rfl (by decide))
    n (.stat e q (demoInt i)) rfl x

/-- C44: and they do return; with the default 7 and bounds 0 and 12 the additions give 21, clamped to 12 -/
example : ∃ v : StatInt, demoSum'.answer demoAddr 1 (.stat 0 demoQ (demoInt 1)) = .ok (some v) ∧
    (demoSv true).eval v = .ok (12 : Int) := ⟨⟨21, 0, 12, 1⟩, rfl, rfl⟩

end BSQ
