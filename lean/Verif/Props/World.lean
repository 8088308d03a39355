import Verif.Props.Plugin
import Verif.Props.Join
/-!
# C42, C44 through the world: what was registered is what a query starts from
-/
namespace BSQ
set_option linter.unusedSectionVars false
variable {E : Env} {Q Ent G : Type} [DecidableEq Q] [DecidableEq Ent] (A : Addr E)

/-- what may be done to the resources of a world -/
inductive WorldOp (E : Env) (G : Type) where
  | defaults (o : DefOp E)
  | stat (T : E.S)
  | relation (g : G)
  | clear

/-- the operations about defaults -/
def WorldOp.defOps (os : List (WorldOp E G)) : List (DefOp E) :=
  os.filterMap fun | .defaults o => some o | _ => none

/-- the methods of `World` (plugin.rs:47-83) one after the other -/
def Resources.step (w : Resources E Q Ent G) : WorldOp E G → Res (Resources E Q Ent G)
  | .defaults (.default s v) => w.registerStatDefault A s v
  | .defaults (.min s b) => w.registerStatMin A s b
  | .defaults (.max s b) => w.registerStatMax A s b
  | .stat T => w.registerStat A T
  | .relation g => .ok (w.registerStatRelation g)
  | .clear => w.clearStatCache

def Resources.run (w : Resources E Q Ent G) : List (WorldOp E G) → Res (Resources E Q Ent G)
  | [] => .ok w
  | o :: os => w.step A o >>= fun w' => w'.run os

variable {A}

theorem Resources.step_defaults {w w' : Resources E Q Ent G} {o : WorldOp E G} (h : w.step A o = .ok w') :
    Defaults.runFrom A (w.defaults.getD []) (WorldOp.defOps [o]) = .ok (w'.defaults.getD []) := by
  cases o with
  | defaults o =>
    cases o with
    | default s v =>
      have := ((C60_register A w w').2.1 s v h).2.2.2.2
      simp [WorldOp.defOps, Defaults.runFrom, this]
    | min s v =>
      have := ((C60_register A w w').2.2.1 s v h).2.2.2.2
      simp [WorldOp.defOps, Defaults.runFrom, this]
    | max s v =>
      have := ((C60_register A w w').2.2.2.1 s v h).2.2.2.2
      simp [WorldOp.defOps, Defaults.runFrom, this]
  | stat T =>
    have := ((C60_register A w w').1 T h).2.1
    simp [WorldOp.defOps, Defaults.runFrom, this]
  | relation g =>
    simp only [Resources.step, Except.ok.injEq] at h
    subst h
    rfl
  | clear =>
    simp only [Resources.step, Resources.clearStatCache] at h
    cases hc : w.cache with
    | none => rw [hc] at h; cases h
    | some c =>
      rw [hc] at h
      obtain ⟨_, _, h⟩ := Res.bind_eq_ok.1 h
      cases h
      rfl

theorem Defaults.runFrom_append (d : Defaults E) (l l' : List (DefOp E)) :
    Defaults.runFrom A d (l ++ l') = Defaults.runFrom A d l >>= fun d' => Defaults.runFrom A d' l' := by
  induction l generalizing d with
  | nil => rfl
  | cons o l ih =>
    simp only [List.cons_append, Defaults.runFrom]
    cases Defaults.step A d o with
    | error e => rfl
    | ok d' => simp [ih]

theorem Resources.run_defaults (os : List (WorldOp E G)) {w w' : Resources E Q Ent G} (h : w.run A os = .ok w') :
    Defaults.runFrom A (w.defaults.getD []) (WorldOp.defOps os) = .ok (w'.defaults.getD []) := by
  induction os generalizing w with
  | nil => cases h; rfl
  | cons o os ih =>
    obtain ⟨w1, h1, h2⟩ := Res.bind_eq_ok.1 h
    have e : WorldOp.defOps (o :: os) = WorldOp.defOps [o] ++ WorldOp.defOps os := by
      cases o <;> simp [WorldOp.defOps]
    rw [e, Defaults.runFrom_append, Resources.step_defaults h1]
    exact ih h2

/-- C42, partial: after any history of registrations through the world (defaults, bounds, stat types, relations,
clearing the cache), the registered value of each stat is the last default with the later bounds applied, and
the type's default for other stats, and a query for the stat starts from it.  Missing, as in
`C42_history_partial`: bounds for a stat without a registered default. -/
theorem C42_world_partial (os : List (WorldOp E G)) (hos : DefOp.BoundsLast [] (WorldOp.defOps os))
    (w w' : Resources E Q Ent G) (h0 : w.defaults = none) (h : w.run A os = .ok w') :
    ∃ f, DMap.run (WorldOp.defOps os) = .ok f ∧ ∀ s,
      Defaults.get A (w'.defaults.getD []) s = .ok (f.value s) ∧
      ∀ W : World E Q Ent, W.defaults = w'.defaults → Storable (E.layout s.ty) →
        W.startValue A s = .ok (.val s.ty (f.value s)) := by
  have hd := Resources.run_defaults os h
  rw [h0] at hd
  change Defaults.run A _ = _ at hd
  obtain ⟨k1, k2⟩ := C42_history_partial A (WorldOp.defOps os) hos
  cases hf : DMap.run (WorldOp.defOps os) with
  | error e => rw [k2 e hf] at hd; cases hd
  | ok f =>
    obtain ⟨d, e1, e2⟩ := k1 f hf
    rw [hd] at e1
    cases e1
    refine ⟨f, rfl, fun s => ⟨(e2 s).1, fun W hW hs => ?_⟩⟩
    have hg := (e2 s).2 hs
    have hs' : Storable (E.layout (E.valTy s.vt)) := hs
    unfold World.startValue World.registered
    rw [hW]
    cases hw : w'.defaults with
    | none =>
      rw [hw] at hg
      simp only [Defaults.getDyn, Option.getD_none, HMap.get, Defaults.cloned] at hg
      simpa [vtDefault, Buf.from_eq, hs'] using hg
    | some d =>
      rw [hw] at hg
      simp only [Option.getD_some] at hg
      simp [hg, vtDefault, Buf.from_eq, hs']

/-- C42, partial: and such a history never panics because of the defaults: it returns whenever the registered
values can be stored and the bounds apply (`DMap.run` returns) -/
theorem C42_world_returns_partial (os : List (DefOp E)) (hos : DefOp.BoundsLast [] os)
    (w : Resources E Q Ent G) (h0 : w.defaults = none) (f : DMap E) (hf : DMap.run os = .ok f) :
    ∃ w', w.run A (os.map .defaults) = .ok w' := by
  obtain ⟨d, hd, -⟩ := (C42_history_partial A os hos).1 f hf
  have key : ∀ (os : List (DefOp E)) (w : Resources E Q Ent G) (d : Defaults E),
      Defaults.runFrom A (w.defaults.getD []) os = .ok d → ∃ w', w.run A (os.map .defaults) = .ok w' := by
    intro os
    induction os with
    | nil => intro w d _; exact ⟨w, rfl⟩
    | cons o os ih =>
      intro w d h
      obtain ⟨d1, h1, h2⟩ := Res.bind_eq_ok.1 h
      have : w.step A (.defaults o) = .ok { w with defaults := some d1 } := by
        cases o with
        | default s v =>
          simp only [Defaults.step] at h1
          simp [Resources.step, Resources.registerStatDefault, h1]
        | min s v =>
          simp only [Defaults.step] at h1
          simp [Resources.step, Resources.registerStatMin, h1]
        | max s v =>
          simp only [Defaults.step] at h1
          simp [Resources.step, Resources.registerStatMax, h1]
      obtain ⟨w', hw'⟩ := ih { w with defaults := some d1 } d h2
      exact ⟨w', by simp [Resources.run, this, hw']⟩
  exact key os w d (by rw [h0]; exact hd)

/-- a history that registers a default, a relation, a bound and a stat type; the bound raises the start value's
minimum from `i32::MIN` to 5 -/
example : ∃ (f : DMap demo) (w' : Resources demo (BitVec 8) Nat Nat),
    DefOp.BoundsLast [] (WorldOp.defOps (G := Nat) [.defaults (.default (demoInt 0) ⟨3, -2147483648, 2147483647, 1⟩),
      .relation 0, .defaults (.min (demoInt 0) (5 : Int)), .stat true]) ∧
    Resources.run demoAddr (⟨none, none, none, none⟩ : Resources demo (BitVec 8) Nat Nat)
      [.defaults (.default (demoInt 0) ⟨3, -2147483648, 2147483647, 1⟩),
        .relation 0, .defaults (.min (demoInt 0) (5 : Int)), .stat true] = .ok w' ∧
    DMap.run [DefOp.default (E := demo) (demoInt 0) ⟨3, -2147483648, 2147483647, 1⟩, .min (demoInt 0) (5 : Int)] = .ok f ∧
    f.value (demoInt 0) = (⟨3, 5, 2147483647, 1⟩ : StatInt) :=
  ⟨_, _, ⟨by simp, trivial⟩, rfl, rfl, rfl⟩

end BSQ
