import Verif.Spec.OpArms
import Verif.Props.Cast
import Verif.Props.Join
/-!
# C139: sources written with `match_stat!`
-/
set_option linter.unusedSectionVars false
namespace BSQ
variable {E : Env} {Q Ent : Type} [DecidableEq Q] [DecidableEq Ent]

theorem applyOps_assembles {V : Type} {D : StatValue V} {okOp : StatOp D → Prop} (ops : List (StatOp D)) {v v' : V}
    {L : List (StatOp D)} (hv : Assembles D okOp v L) (hok : ∀ o ∈ ops, okOp o ∧ ¬ o.IsBase)
    (h : applyOps ops v = .ok v') : Assembles D okOp v' (L ++ ops) := by
  induction ops generalizing v L with
  | nil => cases h; simpa using hv
  | cons o os ih =>
    obtain ⟨w, h1, h2⟩ := Res.bind_eq_ok.1 h
    have := ih (hv.op (hok o (by simp)).2 (hok o (by simp)).1 h1) (fun o ho => hok o (by simp [ho])) h2
    simpa [List.append_assoc] using this

namespace OpArm
variable (A : Addr E)

theorem arm_matches (a : OpArm E) (s : StatInst E) : a.arm.Matches s ↔ a.Is s := by cases a <;> rfl
theorem arm_statTy (a : OpArm E) : a.arm.statTy = a.statTy := by cases a <;> rfl

/-- the code of the source, on a pair about a stat -/
theorem run_typed {arms : List (OpArm E)} {s : StatInst E} {ops : List (StatOp s.sv)} (h : Selects arms s ops)
    (hl : ∀ a ∈ arms, Storable (E.statLayout a.statTy)) (v : s.Val) :
    matchStat A none (arms.map arm) () (Pair.typed s v) = applyOps ops v >>= fun v' => .ok ((), Pair.typed s v') := by
  induction h with
  | none s => rfl
  | stat x ops rest =>
    have := C38_first_match_stat_partial A none [] (rest.map arm) x v ()
      (fun st v => applyOps ops v >>= fun v' => .ok (st, v')) (by simp) (by simp)
      (hl (.stat x ops) List.mem_cons_self)
    rw [List.nil_append] at this
    refine this.trans ?_
    cases applyOps ops v <;> rfl
  | ty s x hx ops rest =>
    have := C38_first_match_type_partial A none [] (rest.map arm) s v ()
      (fun st x v => applyOps (ops x) v >>= fun v' => .ok (st, v')) (by simp) (by simp)
      (hl (.ty s.vt ops) List.mem_cons_self)
    rw [List.nil_append] at this
    refine this.trans ?_
    rw [hx, Res.bind_ok]
    cases applyOps (ops x) v <;> rfl
  | @skip a s rest ops ha h ih =>
    have := matchStat_skip A none [a.arm] (rest.map arm) s v () (by simpa [arm_matches] using ha)
      (by simpa [arm_statTy] using hl a (by simp))
    exact this.trans (ih (fun a ha => hl a (by simp [ha])) v)

/-- if the code returns, no stat type before the arm that is taken was too large -/
theorem run_ok {arms : List (OpArm E)} {s : StatInst E} {ops : List (StatOp s.sv)} (h : Selects arms s ops) (v : s.Val)
    {p : Pair E} (hp : matchStat A none (arms.map arm) () (Pair.typed s v) = .ok ((), p)) :
    ∃ v', applyOps ops v = .ok v' ∧ p = Pair.typed s v' := by
  induction h with
  | none s => cases hp; exact ⟨v, rfl, rfl⟩
  | @stat T x ops rest =>
    by_cases hs : Storable (E.statLayout T)
    · have := C38_first_match_stat_partial A none [] (rest.map arm) x v ()
        (fun st v => applyOps ops v >>= fun v' => .ok (st, v')) (by simp) (by simp) hs
      rw [List.nil_append] at this
      have hp := this.symm.trans hp
      cases h : applyOps ops v with
      | error e => rw [h] at hp; cases hp
      | ok v' => rw [h] at hp; cases hp; exact ⟨v', rfl, rfl⟩
    · have := C38_refuted_big_stat A none [] (rest.map arm) (OpArm.stat x ops).arm (E.asEntry x) v () (by simp) (by simp) hs
      cases this.symm.trans hp
  | ty s x hx ops rest =>
    by_cases hs : Storable (E.statLayout s.vt)
    · have := C38_first_match_type_partial A none [] (rest.map arm) s v ()
        (fun st x v => applyOps (ops x) v >>= fun v' => .ok (st, v')) (by simp) (by simp) hs
      rw [List.nil_append] at this
      have hp := this.symm.trans hp
      rw [hx, Res.bind_ok] at hp
      cases h : applyOps (ops x) v with
      | error e => rw [h] at hp; cases hp
      | ok v' => rw [h] at hp; cases hp; exact ⟨v', rfl, rfl⟩
    · have := C38_refuted_big_stat A none [] (rest.map arm) (OpArm.ty s.vt ops).arm s v () (by simp) (by simp) hs
      cases this.symm.trans hp
  | @skip a s rest ops ha h ih =>
    by_cases hs : Storable (E.statLayout a.statTy)
    · have := matchStat_skip A none [a.arm] (rest.map arm) s v () (by simpa [arm_matches] using ha)
        (by simpa [arm_statTy] using hs)
      exact ih v (this.symm.trans hp)
    · have := C38_refuted_big_stat A none [] (rest.map arm) a.arm s v () (by simp) (by simp)
        (by rw [arm_statTy]; exact hs)
      cases this.symm.trans hp

theorem Selects.stat_inv {T : E.S} {x : E.Sel T} {l : List (StatOp (E.sv (E.valTy T)))} {rest : List (OpArm E)}
    {s : StatInst E} {ops : List (StatOp s.sv)} (h : Selects (.stat x l :: rest) s ops) :
    (∃ e : s = E.asEntry x, ops = e ▸ (l : List (StatOp (E.asEntry x).sv))) ∨ (s ≠ E.asEntry x ∧ Selects rest s ops) := by
  cases h with
  | stat => exact .inl ⟨rfl, rfl⟩
  | skip ha h => exact .inr ⟨ha, h⟩

theorem Selects.ty_inv {T : E.S} {l : E.Sel T → List (StatOp (E.sv (E.valTy T)))} {rest : List (OpArm E)}
    {s : StatInst E} {ops : List (StatOp s.sv)} (h : Selects (.ty T l :: rest) s ops) :
    (∃ (e : T = s.vt) (x : E.Sel s.vt), E.fromIndex s.vt s.index = .ok x ∧
      ops = (Eq.rec (motive := fun T' _ => E.Sel T' → List (StatOp (E.sv (E.valTy T')))) l e) x) ∨ (s.vt ≠ T ∧ Selects rest s ops) := by
  cases h with
  | ty s x hx ops rest => exact .inl ⟨rfl, x, hx, rfl⟩
  | skip ha h => exact .inr ⟨ha, h⟩

theorem eval_lift {α : Type} (o : Oracle E Q Ent) (r : Res α) : (Prog.lift r : Prog E Q Ent α).eval o = r := by
  cases r <;> rfl
end OpArm

open OpArm

/-- C139: a source whose code is a `match_stat!` does exactly what the first arm for the stat says, and nothing when there
is none, if the stat types it mentions fit in a buffer -/
theorem C139_does (A : Addr E) (arms : List (OpArm E)) (s : StatInst E) (ops : List (StatOp s.sv))
    (h : Selects arms s ops) (hl : ∀ a ∈ arms, Storable (E.statLayout a.statTy)) (o : Oracle E Q Ent) (v : s.Val) :
    (call (Q := Q) (Ent := Ent) A arms ⟨s, .val s.ty v⟩).eval o = applyOps ops v >>= fun v' => .ok ⟨s, .val s.ty v'⟩ := by
  rw [call, eval_lift]
  change (matchStat A none (arms.map arm) () (Pair.typed s v) >>= fun r => .ok r.2) = _
  rw [run_typed A h hl v]
  cases applyOps ops v <;> rfl

/-- C139: the operations are determined by the arms and the stat, and there always are some unless reading the stat back
from its index panics -/
theorem C139_selects (arms : List (OpArm E)) (s : StatInst E) :
    (∀ ops ops', Selects arms s ops → Selects arms s ops' → ops = ops') ∧
    ((∃ x, E.fromIndex s.vt s.index = .ok x) → ∃ ops, Selects arms s ops) := by
  constructor
  · intro ops ops' h h'
    induction arms with
    | nil => cases h; cases h'; rfl
    | cons a rest ih =>
      cases a with
      | stat x l =>
        rcases Selects.stat_inv h with ⟨e, h1⟩ | ⟨h1, h2⟩ <;> rcases Selects.stat_inv h' with ⟨e', h1'⟩ | ⟨h1', h2'⟩
        · rw [h1, h1']
        · exact absurd e h1'
        · exact absurd e' h1
        · exact ih h2 h2'
      | ty T l =>
        rcases Selects.ty_inv h with ⟨e, x, hx, h1⟩ | ⟨h1, h2⟩ <;> rcases Selects.ty_inv h' with ⟨e', x', hx', h1'⟩ | ⟨h1', h2'⟩
        · cases hx.symm.trans hx'
          rw [h1, h1']
        · exact absurd e.symm h1'
        · exact absurd e'.symm h1
        · exact ih h2 h2'
  · rintro ⟨x, hx⟩
    induction arms with
    | nil => exact ⟨[], .none s⟩
    | cons a rest ih =>
      obtain ⟨ops, ih⟩ := ih
      by_cases ha : a.Is s
      · cases a with
        | stat y l => cases ha; exact ⟨l, .stat y l rest⟩
        | ty T l => cases ha; exact ⟨l x, .ty s x hx l rest⟩
      · exact ⟨ops, .skip ha ih⟩

/-- C139: such a source contributes the operations of the first arm for the stat (so C44, C54, C78, C100 and C138 apply to
it), if the arms do not overwrite the value -/
theorem C139_contributes (A : Addr E) (arms : List (OpArm E)) (s : StatInst E) (ops : List (StatOp s.sv))
    (h : Selects arms s ops) (okOp : StatOp s.sv → Prop) (hok : ∀ o ∈ ops, okOp o ∧ ¬ o.IsBase) :
    Call.Contributes (Q := Q) (Ent := Ent) s okOp (call A arms) (.ret ops) := by
  intro o v L p' hv hp
  rw [call, eval_lift] at hp
  obtain ⟨⟨⟨⟩, p⟩, h1, h2⟩ := Res.bind_eq_ok.1 hp
  cases h2
  obtain ⟨v', h3, rfl⟩ := run_ok A h v h1
  exact ⟨ops, v', rfl, rfl, applyOps_assembles ops hv hok h3⟩

/-- C139: when all sources of a query are written with `match_stat!` and their arms do not overwrite the value, the order
of the sources is irrelevant (for the stats in `good`, whose index can be read back and whose operations are unordered) -/
theorem C139_order (A : Addr E) (J J' : Joined E Q Ent) (hJ : SameSources J J') (good : StatInst E → Prop)
    (okOp : (s : StatInst E) → StatOp s.sv → Prop) (hgood : ∀ s, good s → ∃ x, E.fromIndex s.vt s.index = .ok x)
    (hu : ∀ s, good s → Unordered s.sv (okOp s))
    (hstart : ∀ s b, good s → J.world.startValue A s = .ok b → ∃ v L, b = .val s.ty v ∧ Assembles s.sv (okOp s) v L)
    (armsOk : List (OpArm E) → Prop)
    (hok : ∀ arms, armsOk arms → ∀ s, good s → ∀ ops, Selects arms s ops → ∀ o ∈ ops, okOp s o ∧ ¬ o.IsBase)
    (hs : ∀ e q, ∀ c ∈ J.statCalls e q, ∃ arms, armsOk arms ∧ c = call A arms)
    (hr : ∀ a b q, ∀ c ∈ J.relationCalls a b q, ∃ arms, armsOk arms ∧ c = call A arms)
    (ha : ∀ e a, ∀ c ∈ J.attrCalls e a, ∃ b, c = .ret b)
    (n m : Nat) (r : Req E Q Ent) (hreq : Req.About good r) : Agree (J.answer A n r) (J'.answer A m r) := by
  have key : ∀ s, good s → ∀ c : Call E Q Ent, (∃ arms, armsOk arms ∧ c = call A arms) →
      ∃ C : Prog E Q Ent (List (StatOp s.sv)), c.Contributes s (okOp s) C ∧ C.Trusts (Req.About good) := by
    rintro s hg c ⟨arms, ho, rfl⟩
    obtain ⟨ops, h⟩ := (C139_selects arms s).2 (hgood s hg)
    exact ⟨.ret ops, C139_contributes A arms s ops h (okOp s) (hok arms ho s hg ops h), trivial⟩
  refine C44_order hJ ⟨hstart, fun e q s hg c hc => key s hg c (hs e q c hc),
    fun a b q s hg c hc => key s hg c (hr a b q c hc), ?_⟩ hu n m r hreq
  intro e a c hc
  obtain ⟨b, rfl⟩ := ha e a c hc
  trivial

/-- C139: code written with `match_stat!`, whatever the bodies of its arms do to the values they get, keeps the stat of the
pair and a value of its type in it (so that the theorems on well-behaved streams apply to it) -/
theorem C139_safe {σ : Type} (A : Addr E) (arms : List (Arm E σ)) (st : σ) (hb : ∀ a ∈ arms, a.Defined)
    (hf : ∀ T i, E.fromIndex T i ≠ .error .ub) :
    Call.Safe (Q := Q) (Ent := Ent) fun p => Prog.lift (matchStat A none arms st p >>= fun r => .ok r.2) := by
  intro p hp
  have key : ∀ s (v : s.Val), match (matchStat A none arms st (Pair.typed s v) >>= fun r => .ok r.2 : Res (Pair E)) with
      | .ok p' => p'.stat = s ∧ p'.Typed
      | .error x => x ≠ .ub := by
    intro s v
    induction arms with
    | nil => exact ⟨rfl, v, rfl⟩
    | cons a rest ih =>
      have ih := ih (fun a ha => hb a (List.mem_cons_of_mem _ ha))
      have ha := hb a List.mem_cons_self
      by_cases hT : Storable (E.statLayout a.statTy)
      · by_cases hm : a.Matches s
        · cases a with
          | ty T body =>
            cases hm
            have := C38_first_match_type_partial A none [] rest s v st body (by simp) (by simp) hT
            rw [List.nil_append] at this
            rw [this]
            cases hx : E.fromIndex s.vt s.index with
            | error e => exact fun h => hf _ _ (h ▸ hx)
            | ok x =>
              cases hB : body st x v with
              | error e => simp only [Res.bind_ok, hB]; exact fun h => ha st x v (h ▸ hB)
              | ok o => simp only [Res.bind_ok, hB]; exact ⟨rfl, o.2, rfl⟩
          | stat x body =>
            cases hm
            have := C38_first_match_stat_partial A none [] rest x v st body (by simp) (by simp) hT
            rw [List.nil_append] at this
            rw [this]
            cases hB : body st v with
            | error e => exact fun h => ha st v (h ▸ hB)
            | ok o => exact ⟨rfl, o.2, rfl⟩
        · have := matchStat_skip A none [a] rest s v st (by simpa using hm) (by simpa using hT)
          rw [List.singleton_append] at this
          rw [this]; exact ih
      · have := C38_refuted_big_stat A none [] rest a s v st (by simp) (by simp) hT
        rw [List.nil_append] at this
        rw [this]
        exact fun h => by cases h
  obtain ⟨v, hv⟩ := hp
  have := key p.stat v
  have e : p = Pair.typed p.stat v := by rw [Pair.typed, ← hv]
  rw [← e] at this
  change Prog.All _ (Prog.lift (matchStat A none arms st p >>= fun r => .ok r.2))
  revert this
  cases h : (matchStat A none arms st p >>= fun r => .ok r.2 : Res (Pair E)) with
  | error e => exact fun h => h
  | ok p' => exact fun h => h

end BSQ
