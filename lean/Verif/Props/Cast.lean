import Verif.Spec.Querier
import Verif.Model.MatchStat
import Verif.Proofs.StatMap
import Verif.Spec.Demo
/-!
# C36: casts of stat/value pairs; C38: `match_stat!`
-/
namespace BSQ
variable {E : Env} (A : Addr E)

/-- a pair holding a value of its stat's type -/
def Pair.typed (s : StatInst E) (v : s.Val) : Pair E := ⟨s, .val s.ty v⟩

theorem Pair.typed_Typed (s : StatInst E) (v : s.Val) : (Pair.typed s v).Typed := ⟨v, rfl⟩
theorem Pair.Typed.eq {p : Pair E} (h : p.Typed) : ∃ v : p.stat.Val, p = Pair.typed p.stat v := by
  obtain ⟨v, hv⟩ := h
  exact ⟨v, by rw [Pair.typed, ← hv]⟩

theorem Addr.at_eq_iff (a b : E.S) : A.at_ a = A.at_ b ↔ a = b := ⟨A.inj, congrArg _⟩

theorem StatInst.eq_iff (a b : StatInst E) : a.eq A b = true ↔ a = b := by
  obtain ⟨x, i⟩ := a
  obtain ⟨y, j⟩ := b
  simp only [StatInst.eq, Bool.and_eq_true, beq_iff_eq, A.at_eq_iff, StatInst.mk.injEq]
  exact ⟨fun h => ⟨h.2, h.1⟩, fun h => ⟨h.2, h.1⟩⟩

/-- C36: `is` decides whether the pair is about the stat -/
theorem C36_is (s : StatInst E) (v : s.Val) (o : StatInst E) : (Pair.typed s v).is A o = true ↔ s = o :=
  StatInst.eq_iff A s o

/-- C36, for stat types of at most 24 bytes: `cast::<T>` yields a stat and value iff the pair's stat is of type `T`; the stat is the one with the
pair's index and the value is the pair's value.  (A panic is only possible as the documented panic of
`from_index`.) -/
theorem C36_cast_partial (s : StatInst E) (v : s.Val) (T : E.S) (hT : Storable (E.statLayout T)) :
    (∀ h : T = s.vt, (Pair.typed s v).cast A T =
      (E.fromIndex T s.index >>= fun x => .ok (some (x, h ▸ v)))) ∧
    (T ≠ s.vt → (Pair.typed s v).cast A T = .ok none) := by
  constructor
  · intro h
    subst h
    simp [Pair.cast, Pair.typed, validate_eq, hT, Buf.get]
  · intro h
    have : ¬ A.at_ s.vt = A.at_ T := fun h' => h (A.inj h').symm
    simp [Pair.cast, Pair.typed, validate_eq, hT, this]

/-- C36: for a pair about the stat `x`, whose index converts back to it, `cast` returns `x` itself -/
theorem C36_cast_self_partial {T : E.S} (x : E.Sel T) (v : (E.asEntry x).Val) (hT : Storable (E.statLayout T))
    (hx : E.fromIndex T (E.asIndex x) = .ok x) :
    (Pair.typed (E.asEntry x) v).cast A T = .ok (some (x, v)) := by
  rw [(C36_cast_partial A (E.asEntry x) v T hT).1 rfl]
  simp [Env.asEntry, hx]

/-- C36: `is_then_cast` yields the value iff the pair is about exactly that stat -/
theorem C36_isThenCast_partial {T : E.S} (x : E.Sel T) (hT : Storable (E.statLayout T)) :
    (∀ v : (E.asEntry x).Val, (Pair.typed (E.asEntry x) v).isThenCast A x = .ok (some v)) ∧
    (∀ (s : StatInst E) (v : s.Val), s ≠ E.asEntry x → (Pair.typed s v).isThenCast A x = .ok none) := by
  constructor
  · intro v
    have : (E.asEntry x).eq A (E.asEntry x) = true := (StatInst.eq_iff A _ _).2 rfl
    simp only [Pair.isThenCast, Pair.typed, validate_eq, hT, this, if_true, Res.bind_ok]
    simp [Env.asEntry, Buf.get]
    rfl
  · intro s v h
    have : (s.eq A (E.asEntry x)) = false := by
      rw [← Bool.not_eq_true, StatInst.eq_iff]; exact h
    simp [Pair.isThenCast, Pair.typed, validate_eq, hT, this]

/-- C36: `into_result::<T>` yields the value iff the pair's stat is of type `T` -/
theorem C36_intoResult_partial (s : StatInst E) (v : s.Val) (T : E.S) (hT : Storable (E.statLayout T))
    (hv : Storable (E.layout s.ty)) :
    (∀ h : T = s.vt, (Pair.typed s v).intoResult A T = .ok (some (h ▸ v))) ∧
    (T ≠ s.vt → (Pair.typed s v).intoResult A T = .ok none) := by
  constructor
  · intro h
    subst h
    simp [Pair.intoResult, Pair.typed, validate_eq, hT, Buf.read, hv, Buf.get]
  · intro h
    have : ¬ A.at_ s.vt = A.at_ T := fun h' => h (A.inj h').symm
    simp [Pair.intoResult, Pair.typed, validate_eq, hT, this]

/-- C36: none of the casts misreads a value, whatever the layouts and the target -/
theorem C36_never_misread (p : Pair E) (hp : p.Typed) (T : E.S) (x : E.Sel T)
    (hf : E.fromIndex T p.stat.index ≠ .error .ub) :
    p.cast A T ≠ .error .ub ∧ p.isThenCast A x ≠ .error .ub ∧ p.intoResult A T ≠ .error .ub := by
  obtain ⟨v, hv⟩ := hp.eq
  rw [hv]
  generalize p.stat = s at v hf
  by_cases hT : Storable (E.statLayout T)
  · refine ⟨?_, ?_, ?_⟩
    · by_cases h : T = s.vt
      · rw [(C36_cast_partial A s v T hT).1 h]
        revert hf
        cases E.fromIndex T s.index <;> simp
      · rw [(C36_cast_partial A s v T hT).2 h]; simp
    · by_cases h : s = E.asEntry x
      · subst h; rw [(C36_isThenCast_partial A x hT).1 v]; simp
      · rw [(C36_isThenCast_partial A x hT).2 s v h]; simp
    · by_cases h : T = s.vt
      · subst h
        simp only [Pair.intoResult, Pair.typed, validate_eq, hT, Buf.read, Buf.get]
        by_cases hv : Storable (E.layout s.ty) <;> simp [hv]
      · rw [show (Pair.typed s v).intoResult A T = .ok none from ?_]
        · simp
        · have : ¬ A.at_ s.vt = A.at_ T := fun h' => h (A.inj h').symm
          simp [Pair.intoResult, Pair.typed, validate_eq, hT, this]
  · simp [Pair.cast, Pair.isThenCast, Pair.intoResult, validate_eq, hT]

/-- C36: the casts check the layout of the *stat* type, so a stat type larger than 24 bytes makes them panic
on every pair, even one about another stat -/
theorem C36_refuted_big_stat (p : Pair E) (T : E.S) (x : E.Sel T) (hT : ¬ Storable (E.statLayout T)) :
    p.cast A T = .error .panic ∧ p.isThenCast A x = .error .panic ∧ p.intoResult A T = .error .panic := by
  simp [Pair.cast, Pair.isThenCast, Pair.intoResult, validate_eq, hT]

/-- the program of `Spec/Demo` with a third stat type, whose selectors take 32 bytes (say a struct of four
`u64`s) -/
abbrev bigDemo : Env where
  U := Bool
  El := demoEl
  sv := demoSv
  layout := demo.layout
  opLayout := demo.opLayout
  S := Option Bool
  valTy s := s.getD true
  statLayout s := if s.isSome then ⟨1, 1⟩ else ⟨32, 8⟩
  Sel _ := Nat
  asIndex x := x
  fromIndex _ i := .ok i
  statName _ := ""
  values _ := [0]

def bigDemoAddr : Addr bigDemo where
  at_ s := match s with
    | none => 0
    | some true => 1000
    | some false => 2000
  inj {a b} h := by revert h; rcases a with _ | _ | _ <;> rcases b with _ | _ | _ <;> simp

/-- C36 fails as stated: asking a pair about an ordinary stat whether it is about a stat of the big type
panics instead of answering no, and asking a pair about a stat of the big type panics instead of answering
yes -/
theorem C36_refuted :
    ¬ ∀ (E : Env) (A : Addr E) (s : StatInst E) (v : s.Val) (T : E.S), Storable (E.layout s.ty) →
      ((T ≠ s.vt → (Pair.typed s v).cast A T = .ok none) ∧
       (T ≠ s.vt → (Pair.typed s v).intoResult A T = .ok none) ∧
       (∀ h : T = s.vt, (Pair.typed s v).intoResult A T = .ok (some (h ▸ v)))) := by
  intro H
  have h := (H bigDemo bigDemoAddr ⟨some true, 0⟩ (⟨1, 2, 3, 4⟩ : StatInt) none
    (show Storable ⟨16, 8⟩ by decide)).1 (by simp)
  rw [(C36_refuted_big_stat bigDemoAddr _ none (0 : Nat) (show ¬ Storable ⟨32, 8⟩ by decide)).1] at h
  cases h

/-- the hypotheses are met by the concrete program -/
example : (Pair.typed (demoInt 3) ⟨1, 2, 3, 4⟩).cast demoAddr true = .ok (some ((3 : Nat), ⟨1, 2, 3, 4⟩)) :=
  (C36_cast_partial demoAddr _ _ true (by decide)).1 rfl
example : (Pair.typed (demoInt 3) ⟨1, 2, 3, 4⟩).cast demoAddr false = .ok none :=
  (C36_cast_partial demoAddr _ _ false (by decide)).2 (by decide)
example : Pair.isThenCast (E := demo) demoAddr (T := true) (Pair.typed (demoInt 3) ⟨1, 2, 3, 4⟩) (4 : Nat) =
    .ok none :=
  (C36_isThenCast_partial (E := demo) demoAddr (T := true) (4 : Nat) (by decide)).2 _ _ (by decide)

/-! ### C38 -/

/-- the arm is for this stat -/
def Arm.Matches {σ : Type} (s : StatInst E) : Arm E σ → Prop
  | .ty T _ => s.vt = T
  | .stat x _ => s = E.asEntry x

/-- the stat type an arm mentions -/
def Arm.statTy {σ : Type} : Arm E σ → E.S
  | .ty T _ => T
  | .stat (T := T) _ _ => T

/-- arms that do not match are passed over -/
theorem matchStat_skip {σ : Type} (last) (pre rest : List (Arm E σ)) (s : StatInst E) (v : s.Val) (st : σ)
    (hpre : ∀ b ∈ pre, ¬ b.Matches s) (hl : ∀ b ∈ pre, Storable (E.statLayout b.statTy)) :
    matchStat A last (pre ++ rest) st (Pair.typed s v) = matchStat A last rest st (Pair.typed s v) := by
  induction pre with
  | nil => rfl
  | cons b pre ih =>
    have hb := hpre b (by simp)
    have hlb := hl b (by simp)
    have ih' := ih (fun c hc => hpre c (by simp [hc])) (fun c hc => hl c (by simp [hc]))
    cases b with
    | ty T body =>
      simp only [List.cons_append, matchStat]
      rw [(C36_cast_partial A s v T hlb).2 (fun h => hb h.symm)]
      simpa using ih'
    | stat x body =>
      simp only [List.cons_append, matchStat]
      rw [(C36_isThenCast_partial A x hlb).2 s v hb]
      simpa using ih'

/-- C38: if the first arm that matches is for the stat's type, exactly its body runs, on the stat and the
value, whatever arms follow -/
theorem C38_first_match_type_partial {σ : Type} (last) (pre post : List (Arm E σ)) (s : StatInst E) (v : s.Val) (st : σ)
    (body : σ → E.Sel s.vt → s.Val → Res (σ × s.Val)) (hpre : ∀ b ∈ pre, ¬ b.Matches s)
    (hl : ∀ b ∈ pre, Storable (E.statLayout b.statTy)) (hT : Storable (E.statLayout s.vt)) :
    matchStat A last (pre ++ .ty s.vt body :: post) st (Pair.typed s v) =
      (E.fromIndex s.vt s.index >>= fun x => body st x v >>= fun o => .ok (o.1, Pair.typed s o.2)) := by
  rw [matchStat_skip A last pre _ s v st hpre hl]
  simp only [matchStat]
  rw [(C36_cast_partial A s v s.vt hT).1 rfl]
  cases E.fromIndex s.vt s.index <;> simp [Pair.typed, Pair.write]

/-- C38: if the first arm that matches is for the stat, exactly its body runs on the value -/
theorem C38_first_match_stat_partial {σ : Type} (last) (pre post : List (Arm E σ)) {T : E.S} (x : E.Sel T)
    (v : (E.asEntry x).Val) (st : σ) (body : σ → (E.asEntry x).Val → Res (σ × (E.asEntry x).Val))
    (hpre : ∀ b ∈ pre, ¬ b.Matches (E.asEntry x)) (hl : ∀ b ∈ pre, Storable (E.statLayout b.statTy))
    (hT : Storable (E.statLayout T)) :
    matchStat A last (pre ++ .stat x body :: post) st (Pair.typed (E.asEntry x) v) =
      (body st v >>= fun o => .ok (o.1, Pair.typed (E.asEntry x) o.2)) := by
  rw [matchStat_skip A last pre _ _ v st hpre hl]
  simp only [matchStat]
  rw [(C36_isThenCast_partial A x hT).1 v]
  rfl

/-- C38: when no arm matches the `_` arm runs; without one, nothing changes -/
theorem C38_no_match_partial {σ : Type} (arms : List (Arm E σ)) (s : StatInst E) (v : s.Val) (st : σ)
    (hno : ∀ b ∈ arms, ¬ b.Matches s) (hl : ∀ b ∈ arms, Storable (E.statLayout b.statTy)) :
    matchStat A none arms st (Pair.typed s v) = .ok (st, Pair.typed s v) ∧
    ∀ body, matchStat A (some body) arms st (Pair.typed s v) = body st (Pair.typed s v) := by
  have h := fun last => matchStat_skip A last arms [] s v st hno hl
  simp only [List.append_nil] at h
  exact ⟨by rw [h]; rfl, fun body => by rw [h]; rfl⟩

/-- C38 fails as stated: an arm for a stat type larger than 24 bytes panics before any later arm is tried,
whatever the pair is about -/
theorem C38_refuted_big_stat {σ : Type} (last) (pre post : List (Arm E σ)) (b : Arm E σ) (s : StatInst E)
    (v : s.Val) (st : σ) (hpre : ∀ b ∈ pre, ¬ b.Matches s)
    (hl : ∀ b ∈ pre, Storable (E.statLayout b.statTy)) (hb : ¬ Storable (E.statLayout b.statTy)) :
    matchStat A last (pre ++ b :: post) st (Pair.typed s v) = .error .panic := by
  rw [matchStat_skip A last pre _ s v st hpre hl]
  cases b with
  | ty T body =>
    have hb : ¬ Storable (E.statLayout T) := hb
    simp [matchStat, Pair.cast, validate_eq, hb]
  | stat x body =>
    rename_i T
    have hb : ¬ Storable (E.statLayout T) := hb
    simp [matchStat, Pair.isThenCast, validate_eq, hb]

/-- C38: a concrete `match_stat!` whose second arm is for the pair's stat, but whose first arm panics -/
theorem C38_refuted :
    ¬ ∀ (E : Env) (A : Addr E) (T : E.S) (s : StatInst E) (v : s.Val), T ≠ s.vt →
      matchStat A none [.ty T fun st _ v => .ok (st, v), .ty s.vt fun _ _ v => .ok (true, v)] false
        (Pair.typed s v) = (E.fromIndex s.vt s.index >>= fun _ => .ok (true, Pair.typed s v)) := by
  intro H
  have h := H bigDemo bigDemoAddr none ⟨some true, 0⟩ (⟨1, 2, 3, 4⟩ : StatInt) (by simp)
  have h' := C38_refuted_big_stat (σ := Bool) bigDemoAddr none []
    [.ty (some true) fun _ _ v => .ok (true, v)] (.ty none fun st _ v => .ok (st, v)) ⟨some true, 0⟩
    (⟨1, 2, 3, 4⟩ : StatInt) false (by simp) (by simp) (show ¬ Storable ⟨32, 8⟩ by decide)
  rw [List.nil_append] at h'
  rw [h'] at h
  cases h

/-- C38: the pair keeps its stat and its value keeps its type through any `match_stat!` whose `_` arm
respects this -/
theorem C38_typed {σ : Type} (last) (arms : List (Arm E σ)) (st st' : σ) (p p' : Pair E) (hp : p.Typed)
    (hlast : ∀ body, last = some body → ∀ st p st' p', p.Typed → body st p = .ok (st', p') →
      p'.Typed ∧ p'.stat = p.stat)
    (h : matchStat A last arms st p = .ok (st', p')) : p'.Typed ∧ p'.stat = p.stat := by
  obtain ⟨s, b⟩ := p
  obtain ⟨v, hv⟩ := hp
  change s.Val at v
  change b = .val s.ty v at hv
  subst hv
  change matchStat A last arms st (Pair.typed s v) = _ at h
  change p'.Typed ∧ p'.stat = s
  induction arms with
  | nil =>
    cases last with
    | none =>
      simp only [matchStat, Except.ok.injEq, Prod.mk.injEq] at h
      obtain ⟨_, rfl⟩ := h
      exact ⟨Pair.typed_Typed s v, rfl⟩
    | some body => exact hlast body rfl st _ st' p' (Pair.typed_Typed s v) h
  | cons a arms ih =>
    cases a with
    | ty T body =>
      by_cases hl : Storable (E.statLayout T)
      · by_cases hT : T = s.vt
        · subst hT
          simp only [matchStat] at h
          rw [(C36_cast_partial A s v _ hl).1 rfl] at h
          simp only [Res.bind_eq_ok] at h
          obtain ⟨r, ⟨x, _, hr⟩, h⟩ := h
          simp only [Except.ok.injEq] at hr
          subst hr
          simp only [Res.bind_eq_ok] at h
          obtain ⟨o, _, h⟩ := h
          simp only [Except.ok.injEq, Prod.mk.injEq] at h
          obtain ⟨_, rfl⟩ := h
          exact ⟨⟨o.2, rfl⟩, rfl⟩
        · simp only [matchStat] at h
          rw [(C36_cast_partial A s v T hl).2 hT] at h
          exact ih h
      · simp [matchStat, Pair.cast, validate_eq, hl] at h
    | stat x body =>
      rename_i T
      by_cases hl : Storable (E.statLayout T)
      · by_cases hT : s = E.asEntry x
        · subst hT
          simp only [matchStat] at h
          rw [(C36_isThenCast_partial A x hl).1 v] at h
          simp only [Res.bind_ok, Res.bind_eq_ok] at h
          obtain ⟨o, _, h⟩ := h
          simp only [Except.ok.injEq, Prod.mk.injEq] at h
          obtain ⟨_, rfl⟩ := h
          exact ⟨⟨o.2, rfl⟩, rfl⟩
        · simp only [matchStat] at h
          rw [(C36_isThenCast_partial A x hl).2 s v hT] at h
          exact ih h
      · simp [matchStat, Pair.isThenCast, validate_eq, hl] at h

/-- the arms of the crate's own test stream (lib.rs:343-365), on the concrete program: stat 1 is matched by
its own arm although the arm for the whole type follows, stat 2 falls through to the latter -/
def demoArms : List (Arm demo (List String)) :=
  [.stat (T := true) (0 : Nat) (fun st v => .ok ("A" :: st, v)),
   .stat (T := true) (1 : Nat) (fun st v => .ok ("B" :: st, v)),
   .ty true (fun st _ v => .ok ("any" :: st, v)),
   .ty false (fun st _ v => .ok ("flag" :: st, v))]

example (v) : matchStat demoAddr none demoArms [] (Pair.typed (demoInt 1) v) =
    .ok (["B"], Pair.typed (demoInt 1) v) := by
  refine C38_first_match_stat_partial (E := demo) demoAddr none
    [.stat (T := true) (0 : Nat) (fun st v => .ok ("A" :: st, v))] _ (T := true) (1 : Nat) v []
    (fun st v => .ok ("B" :: st, v)) ?_ ?_ (by decide)
  · intro b hb; simp at hb; subst hb; intro h; exact absurd (show demoInt 1 = demoInt 0 from h) (by decide)
  · intro b _; exact (by decide : Storable ⟨1, 1⟩)

example (v) : matchStat demoAddr none demoArms [] (Pair.typed (demoFlag 2) v) =
    .ok (["flag"], Pair.typed (demoFlag 2) v) := by
  refine C38_first_match_type_partial (E := demo) demoAddr none (demoArms.take 3) [] (demoFlag 2) v []
    (fun st _ v => .ok ("flag" :: st, v)) ?_ ?_ (by decide)
  · rintro b (_ | ⟨_, _ | ⟨_, _ | ⟨_, h⟩⟩⟩)
    · intro h; exact absurd (show demoFlag 2 = demoInt 0 from h) (by decide)
    · intro h; exact absurd (show demoFlag 2 = demoInt 1 from h) (by decide)
    · intro h; exact absurd (show false = true from h) (by decide)
    · cases h
  · intro b _; exact (by decide : Storable ⟨1, 1⟩)
end BSQ
