import Verif.Spec.Join
import Verif.Props.Recursion
import Verif.Proofs.DemoQuerier
import Verif.Props.StatInt
import Verif.Props.StatMap
import Verif.Props.Bounds
/-!
# C44: a query joins each contribution exactly once, in any order; C54: registered bounds hold for results
-/
namespace BSQ
set_option linter.unusedSectionVars false
universe u v
variable {E : Env} {Q Ent α : Type} {A : Addr E} {J J' : Joined E Q Ent}

/-! ### C44: the value -/

theorem joinList_append {V : Type} (D : StatValue V) (v : V) (l m : List V) :
    joinList D v (l ++ m) = (joinList D v l >>= fun v' => joinList D v' m) := by
  induction l generalizing v with
  | nil => rfl
  | cons x l ih =>
    simp only [List.cons_append, joinList]
    cases D.join v x with
    | error e => rfl
    | ok v' => simp only [Res.bind_ok, ih]

theorem runCalls_joins {o : Oracle E Q Ent} {s : StatInst E} {cs : List (Call E Q Ent)} {ls : List (List s.Val)}
    (h : List.Forall₂ (fun c l => Call.Joins o s c l) cs ls) (v : s.Val) :
    runCalls o cs ⟨s, .val s.ty v⟩ = (joinList s.sv v ls.flatten >>= fun v' => .ok ⟨s, .val s.ty v'⟩) := by
  induction h generalizing v with
  | nil => rfl
  | cons hc _ ih =>
    rw [runCalls, hc v, List.flatten_cons, joinList_append]
    cases joinList s.sv v _ with
    | error e => rfl
    | ok v' => simp only [Res.bind_ok, ih]

/-- C44: when each call made for a query joins some values (`ls`, one list per call: global relations,
components of the entity, its relation components, its children), the query joins exactly these, each once and
in order, into the start value, panics included -/
theorem C44_value (n : Nat) (e : Ent) (q : QualifierQuery Q) (s : StatInst E) (v : s.Val)
    (hs : Storable (E.layout s.ty)) (he : J.world.isStat e = true)
    (hv : J.world.startValue A s = .ok (.val s.ty v)) (ls : List (List s.Val))
    (h : List.Forall₂ (fun c l => Call.Joins (J.answer A n) s c l) (J.statCalls e q) ls) :
    J.answer A (n + 1) (.stat e q s) = (joinList s.sv v ls.flatten >>= fun x => .ok (some x)) := by
  rw [Joined.answer_body hs he, Joined.body, hv, Res.bind_ok, runCalls_joins h]
  cases joinList s.sv v ls.flatten with
  | error e => rfl
  | ok x =>
    simp only [Res.bind_ok]
    change (Buf.val s.ty x).read s.ty >>= _ = _
    rw [Buf.read_val hs]
    rfl

/-- C44: the start value is the registered default of the stat, or the value type's default when none is
registered; it is joined into nothing else -/
theorem C44_start (w : World E Q Ent) (s : StatInst E) (hs : Storable (E.layout s.ty)) :
    (w.defaults = none → w.startValue A s = .ok (.val s.ty s.sv.default)) ∧
    (∀ d, w.defaults = some d → HMap.get (StatInst.eq A) d s = none →
      w.startValue A s = .ok (.val s.ty s.sv.default)) ∧
    (∀ d v, w.defaults = some d → HMap.get (StatInst.eq A) d s = some (.val s.ty v) →
      w.startValue A s = .ok (.val s.ty v)) := by
  have hd : vtDefault s.vt = .ok (.val s.ty s.sv.default) := by
    have : Storable (E.layout (E.valTy s.vt)) := hs
    simp [vtDefault, Buf.from_eq, this]
  refine ⟨fun h => ?_, fun d h hg => ?_, fun d v h hg => ?_⟩
  · simp [World.startValue, World.registered, h, hd]
  · simp [World.startValue, World.registered, h, hd, Defaults.getDyn, hg, Defaults.cloned]
  · simp [World.startValue, World.registered, h, hd, Defaults.getDyn, hg, Defaults.cloned, vtClone_val hs]

/-! ### C44: what the result is assembled from -/

theorem runCalls_assembles {o : Oracle E Q Ent} {s : StatInst E} {okOp : StatOp s.sv → Prop}
    {cs : List (Call E Q Ent)} {Cs : List (Prog E Q Ent (List (StatOp s.sv)))}
    (h : List.Forall₂ (fun c C => Call.Contributes s okOp c C) cs Cs) {v : s.Val} {L : List (StatOp s.sv)}
    (hv : Assembles s.sv okOp v L) {p : Pair E} (hp : runCalls o cs ⟨s, .val s.ty v⟩ = .ok p) :
    ∃ opss v', List.Forall₂ (fun C ops => Prog.eval o C = .ok ops) Cs opss ∧ p = ⟨s, .val s.ty v'⟩ ∧
      Assembles s.sv okOp v' (L ++ opss.flatten) := by
  induction h generalizing v L with
  | nil =>
    cases hp
    exact ⟨[], v, .nil, rfl, by simpa using hv⟩
  | cons hc _ ih =>
    obtain ⟨p1, h1, h2⟩ := Res.bind_eq_ok.1 hp
    obtain ⟨ops, v1, h3, rfl, h4⟩ := hc o v L p1 hv h1
    obtain ⟨opss, v', h5, h6, h7⟩ := ih h4 h2
    exact ⟨ops :: opss, v', .cons h3 h5, h6, by simpa [List.append_assoc] using h7⟩

theorem forall₂_of_forall {β γ : Type} {R : β → γ → Prop} (l : List β) (h : ∀ x ∈ l, ∃ y, R x y) :
    ∃ m, List.Forall₂ R l m := by
  induction l with
  | nil => exact ⟨[], .nil⟩
  | cons x l ih =>
    obtain ⟨y, hy⟩ := h x List.mem_cons_self
    obtain ⟨m, hm⟩ := ih (fun z hz => h z (List.mem_cons_of_mem _ hz))
    exact ⟨y :: m, .cons hy hm⟩

/-- C44: when sources contribute operations, by applying them or by joining values, the result is assembled
from those of the start value and of each call, each exactly once -/
theorem C44_assembled (n : Nat) (e : Ent) (q : QualifierQuery Q) (s : StatInst E)
    (okOp : StatOp s.sv → Prop) (v : s.Val) (L : List (StatOp s.sv)) (hs : Storable (E.layout s.ty))
    (he : J.world.isStat e = true) (hv : J.world.startValue A s = .ok (.val s.ty v))
    (hL : Assembles s.sv okOp v L) (Cs : List (Prog E Q Ent (List (StatOp s.sv))))
    (h : List.Forall₂ (fun c C => Call.Contributes s okOp c C) (J.statCalls e q) Cs) (x : Option s.Val)
    (hx : J.answer A (n + 1) (.stat e q s) = .ok x) :
    ∃ opss v', x = some v' ∧ List.Forall₂ (fun C ops => Prog.eval (J.answer A n) C = .ok ops) Cs opss ∧
      Assembles s.sv okOp v' (L ++ opss.flatten) := by
  rw [Joined.answer_body hs he, Joined.body, hv, Res.bind_ok] at hx
  obtain ⟨p, h1, h2⟩ := Res.bind_eq_ok.1 hx
  obtain ⟨opss, v', h3, rfl, h4⟩ := runCalls_assembles h hL h1
  change ((Buf.val s.ty v').read s.ty >>= fun x => .ok (some x)) = .ok x at h2
  rw [Buf.read_val hs] at h2
  cases h2
  exact ⟨opss, v', rfl, h3, h4⟩

/-! ### C44: the order of sources -/

theorem forall₂_perm {β γ : Type} {R : β → γ → Prop} {l l' : List β} (hl : l.Perm l') {m : List γ}
    (h : List.Forall₂ R l m) : ∃ m', List.Forall₂ R l' m' ∧ m.Perm m' := by
  induction hl generalizing m with
  | nil => exact ⟨m, h, .refl _⟩
  | cons x _ ih =>
    cases h with
    | cons hx h =>
      obtain ⟨m', h1, h2⟩ := ih h
      exact ⟨_ :: m', .cons hx h1, .cons _ h2⟩
  | swap x y l =>
    cases h with
    | cons hy h =>
      cases h with
      | cons hx h => exact ⟨_ :: _ :: _, .cons hx (.cons hy h), .swap _ _ _⟩
  | trans _ _ ih1 ih2 =>
    obtain ⟨m1, h1, h2⟩ := ih1 h
    obtain ⟨m2, h3, h4⟩ := ih2 h1
    exact ⟨m2, h3, h2.trans h4⟩

theorem forall₂_right {β γ : Type} {R : β → γ → Prop} {P : γ → Prop} {l : List β} {m : List γ}
    (h : List.Forall₂ (fun x y => R x y ∧ P y) l m) : ∀ y ∈ m, P y := by
  induction h with
  | nil => intro y hy; cases hy
  | cons hx _ ih =>
    intro y hy
    cases hy with
    | head => exact hx.2
    | tail _ hy => exact ih y hy

theorem forall₂_exists {β γ : Type} {R : β → γ → Prop} {l : List β} {m : List γ}
    (h : List.Forall₂ R l m) : ∀ y ∈ m, ∃ x ∈ l, R x y := by
  induction h with
  | nil => intro y hy; cases hy
  | cons hx _ ih =>
    intro y hy
    cases hy with
    | head => exact ⟨_, List.mem_cons_self, hx⟩
    | tail _ hy =>
      obtain ⟨x, hx, hxy⟩ := ih y hy
      exact ⟨x, List.mem_cons_of_mem _ hx, hxy⟩

theorem forall₂_unique {β γ : Type} {R S : β → γ → Prop} {l : List β} {m m' : List γ}
    (h : List.Forall₂ R l m) (h' : List.Forall₂ S l m') (hu : ∀ x ∈ l, ∀ a b, R x a → S x b → a = b) :
    m = m' := by
  induction h generalizing m' with
  | nil => cases h'; rfl
  | cons hx _ ih =>
    cases h' with
    | cons hx' h' =>
      rw [hu _ List.mem_cons_self _ _ hx hx', ih h' (fun x hx => hu x (List.mem_cons_of_mem _ hx))]

theorem perm_flatMap_congr {β : Type u} {γ : Type v} {l l' : List β} {f g : β → List γ} (hl : l.Perm l')
    (h : ∀ x ∈ l, (f x).Perm (g x)) : (l.flatMap f).Perm (l'.flatMap g) := by
  refine List.Perm.trans ?_ (List.Perm.flatMap_right g hl)
  clear hl
  induction l with
  | nil => exact .refl _
  | cons x l ih =>
    simp only [List.flatMap_cons]
    exact (h x List.mem_cons_self).append (ih (fun y hy => h y (List.mem_cons_of_mem _ hy)))

namespace SameSources
variable (h : SameSources J J')
include h

theorem calls {S S' : List (CStream E Q Ent)} (hS : S.Perm S') {es es' : List Ent} (hes : es.Perm es') (e : Ent)
    (q : QualifierQuery Q) :
    (S.flatMap fun st => st.calls e q es).Perm (S'.flatMap fun st => st.calls e q es') :=
  perm_flatMap_congr hS (fun _ _ => (hes.filterMap _).map _)

theorem statCalls (e : Ent) (q : QualifierQuery Q) : (J.statCalls e q).Perm (J'.statCalls e q) :=
  (((h.relations.map _).append (h.calls h.comp (.refl _) e q)).append (h.calls h.rel (.refl _) e q)).append
    (h.calls h.child (h.children e) e q)

theorem relationCalls (a b : Ent) (q : QualifierQuery Q) :
    (J.relationCalls a b q).Perm (J'.relationCalls a b q) := by
  unfold Joined.relationCalls
  rw [h.placeholder]
  exact (h.relations.map _).append (perm_flatMap_congr h.rel (fun _ _ => .refl _))

theorem attrCalls (e : Ent) (a : String) : (J.attrCalls e a).Perm (J'.attrCalls e a) := by
  have hA : ∀ {S S' : List (CStream E Q Ent)} (_ : S.Perm S') {es es' : List Ent} (_ : es.Perm es'),
      (S.flatMap fun st => st.attrCalls e a es).Perm (S'.flatMap fun st => st.attrCalls e a es') :=
    fun hS _ _ hes => perm_flatMap_congr hS (fun st _ => (hes.filterMap _).map _)
  unfold Joined.attrCalls
  rw [h.isStat]
  refine ((hA h.comp (.refl _)).append (hA h.rel (.refl _))).append ?_
  split
  · exact hA h.child (h.children e)
  · exact .refl _

end SameSources

/-- whenever both are values, they are equal -/
def Agree (x y : Res α) : Prop := ∀ a b, x = .ok a → y = .ok b → a = b

theorem Prog.agree {R : Req E Q Ent → Prop} {o o' : Oracle E Q Ent} (ho : ∀ r, R r → Agree (o r) (o' r))
    (p : Prog E Q Ent α) (hp : p.Trusts R) : Agree (p.eval o) (p.eval o') := by
  induction p with
  | ret a => intro x y hx hy; cases hx; cases hy; rfl
  | fail e => intro x y hx; cases hx
  | ask r k ih =>
    intro x y hx hy
    obtain ⟨a, h1, h2⟩ := Res.bind_eq_ok.1 hx
    obtain ⟨b, h3, h4⟩ := Res.bind_eq_ok.1 hy
    cases ho r hp.1 a b h1 h3
    exact ih a (hp.2 a) x y h2 h4
  | attempt r k ih => exact hp.elim
  | clear k ih => exact ih hp
  | store e q p k ih =>
    intro x y hx hy
    obtain ⟨_, -, h2⟩ := Res.bind_eq_ok.1 hx
    obtain ⟨_, -, h4⟩ := Res.bind_eq_ok.1 hy
    exact ih hp x y h2 h4

theorem runCalls_agree {good : StatInst E → Prop} {okOp : (s : StatInst E) → StatOp s.sv → Prop}
    {o o' : Oracle E Q Ent} (ho : ∀ r, Req.About good r → Agree (o r) (o' r)) {s : StatInst E}
    (hu : Unordered s.sv (okOp s)) {cs cs' : List (Call E Q Ent)} (hp : cs.Perm cs')
    (hc : ∀ c ∈ cs, ∃ C : Prog E Q Ent (List (StatOp s.sv)), c.Contributes s (okOp s) C ∧
      C.Trusts (Req.About good)) {v : s.Val} {L : List (StatOp s.sv)} (hv : Assembles s.sv (okOp s) v L)
    {p p' : Pair E} (h : runCalls o cs ⟨s, .val s.ty v⟩ = .ok p)
    (h' : runCalls o' cs' ⟨s, .val s.ty v⟩ = .ok p') : p = p' := by
  obtain ⟨Cs, hCs⟩ := forall₂_of_forall cs hc
  obtain ⟨Cs', hCs', hperm⟩ := forall₂_perm hp hCs
  obtain ⟨opss, w, h1, rfl, h2⟩ := runCalls_assembles (hCs.imp fun _ _ h => h.1) hv h
  obtain ⟨opss', w', h1', rfl, h2'⟩ := runCalls_assembles (hCs'.imp fun _ _ h => h.1) hv h'
  obtain ⟨opss'', h3, h4⟩ := forall₂_perm hperm h1
  have hasks : ∀ C ∈ Cs', C.Trusts (Req.About good) := by
    intro C hC
    exact forall₂_right hCs' C hC
  have : opss'' = opss' := forall₂_unique h3 h1' (fun C hC a b ha hb => Prog.agree ho C (hasks C hC) a b ha hb)
  subst this
  obtain ⟨t, t1, t2, t3, t4⟩ := h2
  obtain ⟨t', t1', t2', t3', t4'⟩ := h2'
  have : w = w' := hu t t' w w' t1 t1' t2
    (t3.trans (((List.Perm.refl L).append h4.flatten).trans t3'.symm)) t4 t4'
  rw [this]

theorem anyCalls_true {o : Oracle E Q Ent} {l : List (Prog E Q Ent Bool)} (h : anyCalls o l = .ok true) :
    ∃ c ∈ l, c.eval o = .ok true := by
  induction l with
  | nil => cases h
  | cons c l ih =>
    obtain ⟨b, h1, h2⟩ := Res.bind_eq_ok.1 h
    cases b with
    | true => exact ⟨c, List.mem_cons_self, h1⟩
    | false =>
      obtain ⟨d, hd, h3⟩ := ih h2
      exact ⟨d, List.mem_cons_of_mem _ hd, h3⟩

theorem anyCalls_false {o : Oracle E Q Ent} {l : List (Prog E Q Ent Bool)} (h : anyCalls o l = .ok false) :
    ∀ c ∈ l, c.eval o = .ok false := by
  induction l with
  | nil => intro c hc; cases hc
  | cons c l ih =>
    obtain ⟨b, h1, h2⟩ := Res.bind_eq_ok.1 h
    cases b with
    | true => cases h2
    | false =>
      intro d hd
      cases hd with
      | head => exact h1
      | tail _ hd => exact ih h2 d hd

theorem anyCalls_agree {R : Req E Q Ent → Prop} {o o' : Oracle E Q Ent}
    (ho : ∀ r, R r → Agree (o r) (o' r)) {l l' : List (Prog E Q Ent Bool)} (hp : l.Perm l')
    (hl : ∀ c ∈ l, c.Trusts R) : Agree (anyCalls o l) (anyCalls o' l') := by
  intro a b ha hb
  cases a <;> cases b <;> try rfl
  · obtain ⟨c, hc, h⟩ := anyCalls_true hb
    have hc' := hp.mem_iff.2 hc
    exact Prog.agree ho c (hl c hc') _ _ (anyCalls_false ha c hc') h
  · obtain ⟨c, hc, h⟩ := anyCalls_true ha
    exact Prog.agree ho c (hl c hc) _ _ h (anyCalls_false hb c (hp.mem_iff.1 hc))

/-- C44: for stats whose operations commute (`Unordered`), the results of two queriers with the same sources in
different orders agree, whenever both return -/
theorem C44_order {good : StatInst E → Prop} {okOp : (s : StatInst E) → StatOp s.sv → Prop}
    (hJ : SameSources J J') (hC : J.Contributing A good okOp)
    (hu : ∀ s, good s → Unordered s.sv (okOp s)) (n m : Nat) (r : Req E Q Ent) (hr : Req.About good r) :
    Agree (J.answer A n r) (J'.answer A m r) := by
  have hstart : ∀ s, J'.world.startValue A s = J.world.startValue A s := by
    intro s
    simp only [World.startValue, World.registered, hJ.defaults]
  induction n generalizing m r with
  | zero => intro a b ha; rw [J.answer_zero] at ha; cases ha
  | succ n ih =>
    cases m with
    | zero => intro a b _ hb; rw [J'.answer_zero] at hb; cases hb
    | succ m =>
      rw [J.answer_succ, J'.answer_succ]
      have ho : ∀ r, Req.About good r → Agree (J.answer A n r) (J'.answer A m r) := fun r hr => ih m r hr
      have hrun : ∀ (s : StatInst E) (cs cs' : List (Call E Q Ent)), good s → cs.Perm cs' →
          (∀ c ∈ cs, ∃ C : Prog E Q Ent (List (StatOp s.sv)), c.Contributes s (okOp s) C ∧
            C.Trusts (Req.About good)) →
          Agree (do
              let v ← J.world.startValue A s
              let p ← runCalls (J.answer A n) cs ⟨s, v⟩
              let x ← p.value.read s.ty
              (.ok (some x) : Res (Option s.Val)))
            (do
              let v ← J.world.startValue A s
              let p ← runCalls (J'.answer A m) cs' ⟨s, v⟩
              let x ← p.value.read s.ty
              .ok (some x)) := by
        intro s cs cs' hg hp hc a b ha hb
        obtain ⟨v, h1, h2⟩ := Res.bind_eq_ok.1 ha
        obtain ⟨p, h3, h4⟩ := Res.bind_eq_ok.1 h2
        obtain ⟨v', h1', h2'⟩ := Res.bind_eq_ok.1 hb
        obtain ⟨p', h3', h4'⟩ := Res.bind_eq_ok.1 h2'
        rw [h1] at h1'
        cases h1'
        obtain ⟨x, L, rfl, hL⟩ := hC.start s v hg h1
        cases runCalls_agree ho (hu s hg) hp hc hL h3 h3'
        rw [h4] at h4'
        cases h4'
        rfl
      cases r with
      | stat e q s =>
        intro a b ha hb
        simp only [Joined.ideal, ← hJ.isStat, hstart] at ha hb
        obtain ⟨_, -, ha⟩ := Res.bind_eq_ok.1 ha
        obtain ⟨_, -, hb⟩ := Res.bind_eq_ok.1 hb
        cases he : J.world.isStat e with
        | false =>
          simp only [he, Bool.false_eq_true, if_false] at ha hb
          exact Except.ok.inj (ha.symm.trans hb)
        | true =>
          simp only [he, if_true] at ha hb
          exact hrun s _ _ hr (hJ.statCalls e q) (hC.stat e q s hr) a b ha hb
      | relation x y q s =>
        intro a b ha hb
        simp only [Joined.ideal, ← hJ.isStat, hstart] at ha hb
        obtain ⟨_, -, ha⟩ := Res.bind_eq_ok.1 ha
        obtain ⟨_, -, hb⟩ := Res.bind_eq_ok.1 hb
        cases he : (J.world.isStat x && J.world.isStat y) with
        | false =>
          simp only [he, Bool.false_eq_true, if_false] at ha hb
          exact Except.ok.inj (ha.symm.trans hb)
        | true =>
          simp only [he, if_true] at ha hb
          exact hrun s _ _ hr (hJ.relationCalls x y q) (hC.relation x y q s hr) a b ha hb
      | attr e a => exact anyCalls_agree ho (hJ.attrCalls e a) (hC.attr e a)

/-! ### ways to contribute -/

theorem Assembles.join {V : Type} {D : StatValue V} {okOp : StatOp D → Prop} {v w x : V}
    {L M : List (StatOp D)} (hv : Assembles D okOp v L) (hw : Assembles D okOp w M) (h : D.join v w = .ok x) :
    Assembles D okOp x (L ++ M) := by
  obtain ⟨t, t1, t2, t3, t4⟩ := hv
  obtain ⟨u, u1, u2, u3, u4⟩ := hw
  refine ⟨.join t u, ⟨t1, u1⟩, ?_, t3.append u3, ?_⟩
  · intro o ho
    rcases List.mem_append.1 ho with ho | ho
    · exact t2 o ho
    · exact u2 o ho
  · simp only [Tree.run, t4, u4, Res.bind_ok, h]

theorem Assembles.op {V : Type} {D : StatValue V} {okOp : StatOp D → Prop} {v x : V} {L : List (StatOp D)}
    {o : StatOp D} (hv : Assembles D okOp v L) (hb : ¬ o.IsBase) (ho : okOp o) (h : o.writeTo v = .ok x) :
    Assembles D okOp x (L ++ [o]) := by
  obtain ⟨t, t1, t2, t3, t4⟩ := hv
  refine ⟨.op t o, ⟨t1, hb⟩, ?_, t3.append (.refl _), ?_⟩
  · intro p hp
    rcases List.mem_append.1 hp with hp | hp
    · exact t2 p hp
    · cases List.mem_singleton.1 hp; exact ho
  · simp only [Tree.run, t4, Res.bind_ok, h]

theorem Assembles.joinList {V : Type} {D : StatValue V} {okOp : StatOp D → Prop} {l : List V}
    {opss : List (List (StatOp D))} (h : List.Forall₂ (fun w ops => Assembles D okOp w ops) l opss) {v x : V}
    {L : List (StatOp D)} (hv : Assembles D okOp v L) (hx : joinList D v l = .ok x) :
    Assembles D okOp x (L ++ opss.flatten) := by
  induction h generalizing v L with
  | nil => cases hx; simpa using hv
  | cons hw _ ih =>
    obtain ⟨y, h1, h2⟩ := Res.bind_eq_ok.1 hx
    have := ih (hv.join hw h1) h2
    simpa [List.append_assoc] using this

/-- a call that joins assembled values contributes their operations -/
theorem Call.Contributes.joins {s : StatInst E} {okOp : StatOp s.sv → Prop} {c : Call E Q Ent}
    {l : List s.Val} {opss : List (List (StatOp s.sv))} (hc : ∀ o, Call.Joins o s c l)
    (h : List.Forall₂ (fun w ops => Assembles s.sv okOp w ops) l opss) :
    c.Contributes s okOp (.ret opss.flatten) := by
  intro o v L p' hv hp
  rw [hc o v] at hp
  obtain ⟨x, h1, h2⟩ := Res.bind_eq_ok.1 hp
  cases h2
  exact ⟨_, x, rfl, rfl, hv.joinList h h1⟩

section statMap
variable {Q : Type} [BitFlags Q] [FlagSet Q] [Ord Q] [Std.TransOrd Q] [Std.LawfulEqOrd Q]
open FlagSpec

theorem Joined.addAll_sources (l : List (Source E Q Ent)) (J : Joined E Q Ent) :
    (l.foldl Joined.add J).world = J.world ∧
    (l.foldl Joined.add J).comp.leaves = J.comp.leaves ++ Source.comps l ∧
    (l.foldl Joined.add J).child.leaves = J.child.leaves ++ Source.childs l ∧
    (l.foldl Joined.add J).rel.leaves = J.rel.leaves ++ Source.rels l := by
  induction l generalizing J with
  | nil => simp [Source.comps, Source.childs, Source.rels]
  | cons x l ih =>
    obtain ⟨h1, h2, h3, h4⟩ := ih (J.add x)
    rw [List.foldl_cons, h1, h2, h3, h4]
    cases x <;>
      simp [Joined.add, Joined.withComponent, Joined.withChildren, Joined.withRelation, Streams.leaves,
        Source.comps, Source.childs, Source.rels]

/-- C44: however a query is built from a world, its streams of each kind are those added by the builder methods
of that kind, each exactly once and in order, and the world is the same -/
theorem C44_builders (w : World E Q Ent) (x : Source E Q Ent) (l : List (Source E Q Ent)) :
    (l.foldl Joined.add (w.add x)).world = w ∧
    (l.foldl Joined.add (w.add x)).comp.leaves = Source.comps (x :: l) ∧
    (l.foldl Joined.add (w.add x)).child.leaves = Source.childs (x :: l) ∧
    (l.foldl Joined.add (w.add x)).rel.leaves = Source.rels (x :: l) := by
  obtain ⟨h1, h2, h3, h4⟩ := Joined.addAll_sources l (w.add x)
  rw [h1, h2, h3, h4]
  cases x <;>
    simp [World.add, World.withComponent, World.withChildren, World.withRelation, Streams.leaves,
      Source.comps, Source.childs, Source.rels]

theorem Source.perm {l l' : List (Source E Q Ent)} (h : l.Perm l') :
    (Source.comps l).Perm (Source.comps l') ∧ (Source.childs l).Perm (Source.childs l') ∧
    (Source.rels l).Perm (Source.rels l') :=
  ⟨h.filterMap _, h.filterMap _, h.filterMap _⟩

/-- C44: queriers built from the same world by the same builder calls in another order have the same sources,
so by `C44_order` they agree -/
theorem C44_builder_order (w : World E Q Ent) (x x' : Source E Q Ent) (l l' : List (Source E Q Ent))
    (h : (x :: l).Perm (x' :: l')) :
    SameSources (l.foldl Joined.add (w.add x)) (l'.foldl Joined.add (w.add x')) := by
  obtain ⟨a1, a2, a3, a4⟩ := C44_builders w x l
  obtain ⟨b1, b2, b3, b4⟩ := C44_builders w x' l'
  obtain ⟨h1, h2, h3⟩ := Source.perm h
  constructor
  · rw [a1, b1]
  · rw [a1, b1]
  · rw [a1, b1]
  · rw [a1, b1]
  · intro e; rw [a1, b1]
  · rw [a2, b2]; exact h1
  · rw [a3, b3]; exact h2
  · rw [a4, b4]; exact h3

/-- C44: a `StatMap` used as a source joins the values of the entries that match, each exactly once, in the order of
their qualifiers -/
theorem C44_stat_map (h : List (MapOp E Q)) (m : StatMap E Q) (hm : StatMap.run A h = .ok m)
    (e : Ent) (q : QualifierQuery Q) (s : StatInst E) (hs : Storable (E.layout s.ty)) :
    ∃ (a : PMap E Q) (L : List (Qualifier Q × s.Val)), PMap.run h = .ok a ∧
      ((L.map (·.1)).Nodup ∧ (L.map (·.1)).Pairwise KeyBefore.QualBefore) ∧
      (∀ k v, (k, v) ∈ L ↔ a ⟨s, k⟩ = some v ∧ Matches k q) ∧
      ∀ o : Oracle E Q Ent, Call.Joins o s (m.asStream A e q) (L.map (·.2)) := by
  obtain ⟨a, ha, r⟩ := reachRep A hm
  obtain ⟨L, hL, hp, hmem, _⟩ := statList A r s
  refine ⟨a, L.filter (fun p => p.1.qualifiesAs q), ha, ⟨?_, hp.sublist (List.filter_sublist.map _)⟩,
    fun k v => ?_, fun o v => ?_⟩
  · rw [List.pairwise_map] at hp
    refine List.pairwise_map.2 ((hp.sublist List.filter_sublist).imp ?_)
    intro x y hxy hxy'
    rw [hxy'] at hxy
    rcases hxy with h | ⟨_, h⟩
    · exact absurd h (by simp)
    · exact absurd h (by simp)
  · rw [List.mem_filter, hmem, matches_iff]
  · change (Prog.lift (m.streamStat A q ⟨s, .val s.ty v⟩)).eval o = _
    have : m.streamStat A q ⟨s, .val s.ty v⟩ =
        (joinList s.sv v ((L.filter (fun p => p.1.qualifiesAs q)).map (·.2)) >>= fun v' =>
          .ok ⟨s, .val s.ty v'⟩) := by
      unfold StatMap.streamStat
      simp only [Vec.slice_eq r.sorted, hL, Res.bind_ok]
      rw [joinEntries_eq s.vt hs q s.index L v]
      cases joinList s.sv v ((L.filter (fun p => p.1.qualifiesAs q)).map (·.2)) <;> rfl
    rw [this]
    cases joinList s.sv v ((L.filter (fun p => p.1.qualifiesAs q)).map (·.2)) <;> rfl

end statMap

/-! ### C54 -/

/-- the value type of `s` is `StatInt<T>` -/
def IsStatInt (s : StatInst E) (t : NumTy) : Prop :=
  (⟨s.Val, s.sv⟩ : (V : Type) × StatValue V) = ⟨StatInt, statInt t⟩

section
variable {X : (V : Type) × StatValue V} {t : NumTy} (h : X = ⟨StatInt, statInt t⟩)
/-- a value read as what it is -/
def intVal (v : X.1) : StatInt := cast (congrArg (·.1) h) v
/-- a bound -/
def intBound (b : X.2.BoundsT) : Int := cast (congrArg (fun x : (V : Type) × StatValue V => x.2.BoundsT) h) b
/-- a result -/
def intOut (x : X.2.Out) : Int := cast (congrArg (fun x : (V : Type) × StatValue V => x.2.Out) h) x
end

/-- bounds of a `StatInt` that continues a value within `lo..=hi` -/
theorem int_bounds_core {t : NumTy} (v0 : StatInt) (lo hi : Int) (h1 : t.prim.InRange v0.addend)
    (h2 : t.prim.InRange v0.mult) (hmin : v0.min = lo) (hmax : v0.max = hi) (h3 : t.prim.InRange lo)
    (h4 : t.prim.InRange hi) :
    ∃ L : List (StatOp (statInt t)), .min lo ∈ L ∧ .max hi ∈ L ∧ (∀ b, StatOp.min b ∈ L → b = lo) ∧
      Assembles (statInt t) (fun _ => True) v0 L := by
  refine ⟨[.base v0.addend, .mul v0.mult, .min lo, .max hi], by simp, by simp, by simp, ?_⟩
  refine ⟨.op (.op (.op (.base v0.addend) (.mul v0.mult)) (.min lo)) (.max hi), ?_, by simp, by simp [Tree.leaves], ?_⟩
  · simp [Tree.NoReset, StatOp.IsBase]
  · obtain ⟨a, mn, mx, mu⟩ := v0
    simp only at h1 h2 hmin hmax
    subst hmin hmax
    simp [Tree.run, StatOp.writeTo, NumTy.mul, NumTy.fit_inRange h2, NumTy.max_eq, NumTy.min_eq,
      NumTy.minValue, NumTy.maxValue, h3.1, h4.2]

theorem int_bounds {X : (V : Type) × StatValue V} {t : NumTy} (h : X = ⟨StatInt, statInt t⟩) (v0 : X.1)
    (h1 : t.prim.InRange (intVal h v0).addend) (h2 : t.prim.InRange (intVal h v0).mult)
    (h3 : t.prim.InRange (intVal h v0).min) (h4 : t.prim.InRange (intVal h v0).max) :
    ∃ L : List (StatOp X.2), Assembles X.2 (fun _ => True) v0 L ∧
      ∀ ops v out, Assembles X.2 (fun _ => True) v (L ++ ops) → X.2.eval v = .ok out →
        (intVal h v0).min ≤ intOut h out ∧
        ((∀ b, StatOp.min b ∈ ops → intBound h b ≤ (intVal h v0).max) →
          (intVal h v0).min ≤ (intVal h v0).max → intOut h out ≤ (intVal h v0).max) := by
  subst h
  change StatInt at v0
  change t.prim.InRange v0.addend at h1
  change t.prim.InRange v0.mult at h2
  change t.prim.InRange v0.min at h3
  change t.prim.InRange v0.max at h4
  obtain ⟨L, hl, hu, ho, hA⟩ := int_bounds_core v0 v0.min v0.max h1 h2 rfl rfl h3 h4
  refine ⟨L, hA, fun ops v out hv he => ?_⟩
  obtain ⟨tr, t1, -, t3, t4⟩ := hv
  have hB := C28_int t tr t1 v out t4 he
  change v0.min ≤ out ∧ ((∀ b : Int, StatOp.min b ∈ ops → b ≤ v0.max) → v0.min ≤ v0.max → out ≤ v0.max)
  refine ⟨hB.lower v0.min v0.min (t3.mem_iff.2 (List.mem_append_left _ hl)) rfl, fun hops hlohi => ?_⟩
  refine hB.upper v0.max v0.max (t3.mem_iff.2 (List.mem_append_left _ hu)) rfl h4.1 ?_
  intro a y ha hy
  cases hy
  rcases List.mem_append.1 (t3.mem_iff.1 ha) with ha | ha
  · rw [ho _ ha]; exact hlohi
  · exact hops _ ha

/-- C54: let a default with bounds `lo..=hi` be registered for a `StatInt` stat.  If the sources apply
operations or join values, each result of a query evaluates to at least `lo`, and to at most `hi` unless some
source raised the minimum above `hi`.  (`Contributes` excludes `Base` operations, which reset the value.) -/
theorem C54_registered_bounds {t : NumTy} (n : Nat) (e : Ent) (q : QualifierQuery Q) (s : StatInst E)
    (hE : IsStatInt s t) (hs : Storable (E.layout s.ty)) (d : Defaults E) (v0 : s.Val)
    (hd : J.world.defaults = some d) (hv0 : HMap.get (StatInst.eq A) d s = some (.val s.ty v0)) (lo hi : Int)
    (hlo : (intVal hE v0).min = lo) (hhi : (intVal hE v0).max = hi) (hlohi : lo ≤ hi)
    (h1 : t.prim.InRange (intVal hE v0).addend) (h2 : t.prim.InRange (intVal hE v0).mult)
    (h3 : t.prim.InRange lo) (h4 : t.prim.InRange hi)
    (Cs : List (Prog E Q Ent (List (StatOp s.sv))))
    (hC : List.Forall₂ (fun c C => Call.Contributes s (fun _ => True) c C) (J.statCalls e q) Cs)
    (v : s.Val) (hv : J.answer A n (.stat e q s) = .ok (some v)) (out : s.sv.Out) (he : s.sv.eval v = .ok out) :
    lo ≤ intOut hE out ∧
    ((∀ C ∈ Cs, ∀ ops, C.eval (J.answer A (n - 1)) = .ok ops → ∀ b, StatOp.min b ∈ ops → intBound hE b ≤ hi) →
      intOut hE out ≤ hi) := by
  subst hlo hhi
  cases n with
  | zero => rw [J.answer_zero] at hv; cases hv
  | succ n =>
    have hst : J.world.isStat e = true := by
      cases hst : J.world.isStat e with
      | true => rfl
      | false =>
        rw [J.answer_succ] at hv
        simp only [Joined.ideal, validate_eq, hs, if_true, hst, Bool.false_eq_true, if_false, Res.bind_ok] at hv
        cases hv
    obtain ⟨L, hA, hB⟩ := int_bounds hE v0 h1 h2 h3 h4
    obtain ⟨opss, v', hx, h5, h6⟩ := C44_assembled n e q s (fun _ => True) v0 L hs hst
      ((C44_start J.world s hs).2.2 d v0 hd hv0) hA Cs hC (some v) hv
    cases hx
    obtain ⟨h7, h8⟩ := hB _ _ _ h6 he
    refine ⟨h7, fun hops => h8 (fun b hb => ?_) hlohi⟩
    obtain ⟨ops, hops', hb⟩ := List.mem_flatten.1 hb
    obtain ⟨C, hC', hCe⟩ := forall₂_exists h5 ops hops'
    exact hops C hC' ops hCe b hb

/-! ### the hypotheses can be met -/

/-- operations on the integer stats of the demo that are in range -/
def demoOk : (s : StatInst demo) → StatOp s.sv → Prop
  | ⟨true, _⟩ => fun o => (⟨.i32, .prim, .debug⟩ : NumTy).prim.InRange (statInt.contrib o).num
  | ⟨false, _⟩ => fun _ => True

theorem demoAdd_contributes (k : Int) (hk : IntTy.i32.InRange k) (i : Nat) :
    Call.Contributes (Ent := Nat) (Q := BitVec 8) (demoInt i) (demoOk (demoInt i)) (demoAdd k) (.ret [.add k]) := by
  intro o v L p' hv hp
  change StatInt at v
  change (Prog.lift ((demoSv true).add v k >>= fun v' =>
    .ok (Pair.write ⟨demoInt i, .val true v⟩ true v'))).eval o = .ok p' at hp
  cases h : (demoSv true).add v k with
  | error x => rw [h] at hp; cases hp
  | ok v' =>
    rw [h] at hp
    cases hp
    exact ⟨_, v', rfl, rfl, hv.op (fun h => h) hk h⟩

theorem demo_start (w : World demo (BitVec 8) Nat) (hw : w.defaults = none) (i : Nat) (b : Buf demo)
    (hb : w.startValue demoAddr (demoInt i) = .ok b) :
    ∃ (v : StatInt) (L : List (StatOp (demoSv true))), b = .val true v ∧
      Assembles (demoSv true) (demoOk (demoInt i)) v L := by
  rw [(C44_start w (demoInt i) (show Storable ⟨16, 8⟩ by decide)).1 hw] at hb
  cases hb
  exact ⟨_, [], rfl, .dflt, trivial, fun x hx => (by cases hx), .refl _, rfl⟩

/-- adds `k` -/
def demoPlus (k : Int) : CStream demo (BitVec 8) Nat where
  Item := Nat
  query e := if e < 4 then some e else none
  stream _ _ _ := demoAdd k
  relation _ _ _ := demoAdd k
  attr _ it a := .ret (it == 3 && a == "three")

/-- a world with a registered default -/
def demoPlusWorld : World demo (BitVec 8) Nat :=
  { demoWorld with defaults := some [(demoInt 1, .val true (⟨7, 0, 12, 1⟩ : StatInt))] }

/-- four sources besides the global one -/
def demoSum : Joined demo (BitVec 8) Nat :=
  (((demoPlusWorld.withComponent (demoPlus 1)).withComponent (demoPlus 2)).withChildren (demoPlus 3)).withRelation
    (demoPlus 4)

/-- the same, added in another order, with the children the other way around -/
def demoSum' : Joined demo (BitVec 8) Nat :=
  (((World.withComponent { demoPlusWorld with children := fun e => (demoWorld.children e).map List.reverse }
    (demoPlus 2)).withRelation (demoPlus 4)).withComponent (demoPlus 1)).withChildren (demoPlus 3)

example : demoSum.answer demoAddr 1 (.stat 0 demoQ (demoInt 0)) =
    (.ok (some ⟨14, -2147483648, 2147483647, 1⟩) : Res (Option StatInt)) := rfl
example : demoSum'.answer demoAddr 1 (.stat 0 demoQ (demoInt 0)) =
    (.ok (some ⟨14, -2147483648, 2147483647, 1⟩) : Res (Option StatInt)) := rfl
example : demoSum.answer demoAddr 1 (.stat 0 demoQ (demoInt 1)) =
    (.ok (some ⟨21, 0, 12, 1⟩) : Res (Option StatInt)) := rfl

theorem demoSum_same : SameSources demoSum demoSum' where
  isStat := rfl
  defaults := rfl
  placeholder := rfl
  relations := .refl _
  children e := by
    change ((demoWorld.children e).getD []).Perm (((demoWorld.children e).map List.reverse).getD [])
    cases demoWorld.children e with
    | none => exact .refl _
    | some l => exact (List.reverse_perm l).symm
  comp := .swap _ _ _
  child := .refl _
  rel := .refl _

theorem demoSum_calls (e : Nat) (q : QualifierQuery (BitVec 8)) :
    ∀ c ∈ demoSum.statCalls e q, ∃ k, IntTy.i32.InRange k ∧ c = demoAdd k := by
  have hst : ∀ k, IntTy.i32.InRange k → ∀ es, ∀ c ∈ (demoPlus k).calls e q es,
      ∃ k, IntTy.i32.InRange k ∧ c = demoAdd k := by
    intro k hk es c hc
    obtain ⟨it, _, rfl⟩ := List.mem_map.1 hc
    exact ⟨k, hk, rfl⟩
  intro c hc
  change c ∈ [demoAdd 1] ++ ((demoPlus 1).calls e q [e] ++ ((demoPlus 2).calls e q [e] ++ [])) ++
    ((demoPlus 4).calls e q [e] ++ []) ++ ((demoPlus 3).calls e q _ ++ []) at hc
  simp only [List.mem_append, List.mem_singleton, List.not_mem_nil, or_false] at hc
  rcases hc with ((rfl | hc | hc) | hc) | hc
  · exact ⟨1, by decide, rfl⟩
  · exact hst 1 (by decide) _ c hc
  · exact hst 2 (by decide) _ c hc
  · exact hst 4 (by decide) _ c hc
  · exact hst 3 (by decide) _ c hc

theorem demoSum_relation_calls (a b : Nat) (q : QualifierQuery (BitVec 8)) :
    ∀ c ∈ demoSum.relationCalls a b q, ∃ k, IntTy.i32.InRange k ∧ c = demoAdd k := by
  intro c hc
  change c ∈ [demoAdd 1] ++ ((demoPlus 4).relationCalls a b q ++ []) at hc
  simp only [List.mem_append, List.mem_singleton, List.not_mem_nil, or_false] at hc
  rcases hc with rfl | hc
  · exact ⟨1, by decide, rfl⟩
  · unfold CStream.relationCalls at hc
    split at hc
    · exact ⟨4, by decide, List.mem_singleton.1 hc⟩
    · cases hc

theorem demoSum_contributing : demoSum.Contributing demoAddr (fun s => s.vt = true) demoOk where
  start s b hg hb := by
    obtain ⟨vt, i⟩ := s
    cases hg
    by_cases hi : i = 1
    · subst hi
      rw [(C44_start _ (demoInt 1) (by decide)).2.2 _ (⟨7, 0, 12, 1⟩ : StatInt) rfl rfl] at hb
      cases hb
      refine ⟨_, [.base (7 : Int), .min (0 : Int), .max (12 : Int)], rfl,
        .op (.op (.base (7 : Int)) (.min (0 : Int))) (.max (12 : Int)), ⟨⟨trivial, id⟩, id⟩, ?_, .refl _, rfl⟩
      intro o ho
      simp only [Tree.leaves, List.mem_append, List.mem_singleton] at ho
      rcases ho with (rfl | rfl) | rfl <;> (unfold demoOk; decide)
    · have hg : HMap.get (StatInst.eq demoAddr)
          [(demoInt 1, (.val true (⟨7, 0, 12, 1⟩ : StatInt) : Buf demo))] (demoInt i) = none := by
        have : StatInst.eq demoAddr (demoInt 1) (demoInt i) = false := by
          rw [← Bool.not_eq_true, StatInst.eq_iff]
          intro h
          injection h with _ h
          exact hi h.symm
        simp [HMap.get, this]
      rw [(C44_start _ (demoInt i) (show Storable ⟨16, 8⟩ by decide)).2.1 _ rfl hg] at hb
      cases hb
      exact ⟨_, [], rfl, .dflt, trivial, fun x hx => (by cases hx), .refl _, rfl⟩
  stat e q s hg c hc := by
    obtain ⟨vt, i⟩ := s
    cases hg
    obtain ⟨k, hk, rfl⟩ := demoSum_calls e q c hc
    exact ⟨_, demoAdd_contributes k hk i, trivial⟩
  relation a b q s hg c hc := by
    obtain ⟨vt, i⟩ := s
    cases hg
    obtain ⟨k, hk, rfl⟩ := demoSum_relation_calls a b q c hc
    exact ⟨_, demoAdd_contributes k hk i, trivial⟩
  attr e a c hc := by
    have hst : ∀ k es, ∀ c ∈ (demoPlus k).attrCalls e a es, c.Trusts (Req.About fun s => s.vt = true) := by
      intro k es c hc
      obtain ⟨it, _, rfl⟩ := List.mem_map.1 hc
      trivial
    unfold Joined.attrCalls at hc
    simp only [List.mem_append] at hc
    rcases hc with (hc | hc) | hc
    · obtain ⟨st, h1, h2⟩ := List.mem_flatMap.1 hc
      change st ∈ [demoPlus 1, demoPlus 2] at h1
      simp only [List.mem_cons, List.not_mem_nil, or_false] at h1
      rcases h1 with rfl | rfl <;> exact hst _ _ c h2
    · obtain ⟨st, h1, h2⟩ := List.mem_flatMap.1 hc
      cases List.mem_singleton.1 h1
      exact hst _ _ c h2
    · split at hc
      · obtain ⟨st, h1, h2⟩ := List.mem_flatMap.1 hc
        cases List.mem_singleton.1 h1
        exact hst _ _ c h2
      · cases hc

/-- C44 on a concrete pair of queriers -/
example (n m : Nat) (e : Nat) (q : QualifierQuery (BitVec 8)) (i : Nat) :
    Agree (demoSum.answer demoAddr n (.stat e q (demoInt i))) (demoSum'.answer demoAddr m (.stat e q (demoInt i))) :=
  C44_order demoSum_same demoSum_contributing
    (by
      rintro ⟨vt, i⟩ hg
      cases hg
      exact C16_unordered ⟨.i32, .prim, .debug⟩ rfl (by decide))
    n m _ rfl

/-- C54 on a concrete querier: the sum would be 21, the registered maximum is 12 -/
example (n : Nat) (v : StatInt) (hv : demoSum.answer demoAddr n (.stat 0 demoQ (demoInt 1)) = .ok (some v))
    (out : Int) (he : (demoSv true).eval v = .ok out) : 0 ≤ out ∧ out ≤ 12 := by
  have hC : List.Forall₂ (fun c C => Call.Contributes (demoInt 1) (fun _ => True) c C)
      (demoSum.statCalls 0 demoQ)
      [.ret [.add (1 : Int)], .ret [.add (1 : Int)], .ret [.add (2 : Int)], .ret [.add (4 : Int)],
        .ret [.add (3 : Int)], .ret [.add (3 : Int)]] := by
    have h : ∀ k : Int, Call.Contributes (Ent := Nat) (Q := BitVec 8) (demoInt 1) (fun _ => True) (demoAdd k)
        (.ret [.add k]) := by
      intro k o v L p' hv hp
      change StatInt at v
      change (Prog.lift ((demoSv true).add v k >>= fun v' =>
        .ok (Pair.write ⟨demoInt 1, .val true v⟩ true v'))).eval o = .ok p' at hp
      cases h : (demoSv true).add v k with
      | error x => rw [h] at hp; cases hp
      | ok v' =>
        rw [h] at hp
        cases hp
        exact ⟨_, v', rfl, rfl, hv.op (fun h => h) trivial h⟩
    exact .cons (h 1) (.cons (h 1) (.cons (h 2) (.cons (h 4) (.cons (h 3) (.cons (h 3) .nil)))))
  have := C54_registered_bounds (J := demoSum) (t := ⟨.i32, .prim, .debug⟩) n 0 demoQ (demoInt 1) rfl (by decide)
    _ (⟨7, 0, 12, 1⟩ : StatInt) rfl rfl 0 12 rfl rfl (by decide) (by decide) (by decide) (by decide) (by decide)
    _ hC v hv out he
  refine ⟨this.1, this.2 ?_⟩
  intro C hC' ops hops b hb
  simp only [List.mem_cons, List.not_mem_nil, or_false] at hC'
  rcases hC' with rfl | rfl | rfl | rfl | rfl | rfl <;> (cases hops; cases List.mem_singleton.1 hb)

/-- a component holding a `StatMap` -/
def demoBag (m : StatMap demo (BitVec 8)) : CStream demo (BitVec 8) Nat where
  Item := Nat
  query e := if e < 2 then some e else none
  stream _ it q := m.asStream demoAddr it q

/-- C44 on entities carrying maps: the default is joined with the matching entries of the map -/
example (h : List (MapOp demo (BitVec 8))) (m : StatMap demo (BitVec 8)) (hm : StatMap.run demoAddr h = .ok m)
    (q : QualifierQuery (BitVec 8)) (n : Nat) :
    ∃ (a : PMap demo (BitVec 8)) (L : List (Qualifier (BitVec 8) × StatInt)), PMap.run h = .ok a ∧
      (L.map (·.1)).Nodup ∧
      (∀ k (v : StatInt), (k, v) ∈ L ↔ a ⟨demoInt 1, k⟩ = some v ∧ FlagSpec.Matches k q) ∧
      (World.withComponent { demoPlusWorld with relations := none } (demoBag m)).answer demoAddr (n + 1)
        (.stat 0 q (demoInt 1)) =
      (joinList (demoSv true) (⟨7, 0, 12, 1⟩ : StatInt) (L.map (·.2)) >>= fun x => .ok (some x)) := by
  obtain ⟨a, L, h1, h2, h3, h4⟩ := C44_stat_map (A := demoAddr) (Ent := Nat) h m hm 0 q (demoInt 1) (by decide)
  refine ⟨a, L, h1, h2.1, h3, ?_⟩
  have := C44_value (A := demoAddr) (J := World.withComponent { demoPlusWorld with relations := none } (demoBag m))
    n 0 q (demoInt 1) (⟨7, 0, 12, 1⟩ : StatInt) (by decide) rfl rfl [L.map (·.2)] (.cons (h4 _) .nil)
  rw [this, List.flatten_cons, List.flatten_nil, List.append_nil]

end BSQ
