import Verif.Model.Lock
import Verif.Props.Cache
import Mathlib.Logic.Hydra
/-!
# C87: the lock of the cache; C88: accesses to the cache are atomic
-/
namespace BSQ
set_option linter.unusedSectionVars false

/-- code that has nothing to do with the lock -/
def LProg.Quiet {S α : Type} : LProg S α → Prop
  | .ret _ => True
  | .pause k => k.Quiet
  | _ => False

variable {E : Env} {Q Ent : Type} {A : Addr E} {J : Joined E Q Ent} {u : UserCode E Q Ent} {strict : Bool}

/-- `Clone`, `Drop` and `Debug` of values do not use the cache -/
structure UserCode.Quiet (u : UserCode E Q Ent) : Prop where
  clone : ∀ k b, (u.clone k b).Quiet
  drop : ∀ k b, (u.drop k b).Quiet
  debug : ∀ k b, (u.debug k b).Quiet

/-- the thread is done -/
def LThread.Finished (t : LThread E Q Ent) : Prop := ∃ x, t.code = .ret x

/-! ### brackets -/

/-- Guards are not nested, everything happens under a guard, and changes under a write guard.  `g` is the guard
held. -/
def LProg.Bracketed {S α : Type} : Option Bool → LProg S α → Prop
  | none, .ret _ => True
  | none, .acquire w k => k.Bracketed (some w)
  | some _, .release k => k.Bracketed none
  | some w, .load f => ∀ s, (f s).Bracketed (some w)
  | some true, .store _ k => k.Bracketed (some true)
  | some w, .pause k => k.Bracketed (some w)
  | _, _ => False

theorem LProg.Quiet.bracketed {S α : Type} {p : LProg S Unit} {k : LProg S α} (hp : p.Quiet) {w : Bool}
    (hk : k.Bracketed (some w)) : (p.andThen k).Bracketed (some w) := by
  induction p with
  | ret x => exact hk
  | pause p ih =>
    have : (p.andThen k).Bracketed (some w) := ih hp
    cases w <;> exact this
  | _ => cases hp

theorem LProg.forEach_bracketed {S α K V : Type} {p : K → V → LProg S Unit} {w : Bool}
    (hp : ∀ a b (k : LProg S α), k.Bracketed (some w) → ((p a b).andThen k).Bracketed (some w))
    (l : List (K × V)) {k : LProg S α} (hk : k.Bracketed (some w)) :
    (LProg.forEach p l k).Bracketed (some w) := by
  induction l with
  | nil => exact hk
  | cons e l ih => exact hp _ _ _ ih

theorem LProg.andThen_assoc {S α : Type} (p q : LProg S Unit) (k : LProg S α) :
    (p.andThen q).andThen k = p.andThen (q.andThen k) := by
  induction p with
  | ret x => rfl
  | acquire w p ih => exact congrArg _ ih
  | release p ih => exact congrArg _ ih
  | load f ih => exact congrArg LProg.load (funext fun s => ih s)
  | store f p ih => exact congrArg _ ih
  | pause p ih => exact congrArg _ ih

theorem dropEntry_andThen {α : Type} (k : CacheKey E Q Ent) (b : Buf E) (p : LProg (Shared E Q Ent) α) :
    (dropEntry u k b).andThen p =
      (u.drop k b).andThen (.store (fun c => { c with dropped := c.dropped + 1 }) p) :=
  LProg.andThen_assoc _ _ _

theorem clearThen_bracketed (hu : u.Quiet) {α : Type} {k : LProg (Shared E Q Ent) α} (hk : k.Bracketed none) :
    (clearThen u k).Bracketed none := by
  refine fun c => LProg.forEach_bracketed (w := true) (fun k b p hp => ?_) c.map hk
  rw [dropEntry_andThen]
  exact (hu.drop k b).bracketed (w := true) hp

variable [DecidableEq Q] [DecidableEq Ent]

theorem CProg.locked_bracketed (hu : u.Quiet) {α : Type} (p : CProg E Q Ent α) :
    (p.locked A u).Bracketed none := by
  induction p with
  | ret x => exact trivial
  | fail x => exact trivial
  | get k f ih =>
    intro c
    refine LProg.Quiet.bracketed ?_ (ih _)
    cases HMap.get (CacheKey.eq A) c.map k with
    | none => exact trivial
    | some b => exact hu.clone k b
  | put k b f ih => exact (hu.clone k b).bracketed (w := true) ih
  | clear f ih => exact clearThen_bracketed hu ih

theorem Task.code_bracketed (hu : u.Quiet) (t : Task E Q Ent) : (t.code A u J).Bracketed none := by
  cases t with
  | query n r => exact CProg.locked_bracketed hu _
  | clear => exact clearThen_bracketed hu trivial
  | debug => exact fun c => LProg.forEach_bracketed (w := false) (fun k b p hp => (hu.debug k b).bracketed hp) c.map trivial

/-- what holds of each thread -/
def LThread.Bracketed (t : LThread E Q Ent) : Prop :=
  ∃ g : Option Bool, t.guards = g.toList ∧ t.code.Bracketed g

theorem LReachable.bracketed (hu : u.Quiet) {s : LConf E Q Ent} (h : LReachable strict A u J s) :
    ∀ t ∈ s.threads, t.Bracketed := by
  induction h with
  | init => intro t ht; cases ht
  | step _ hs ih =>
    cases hs with
    | start c ts t =>
      intro x hx
      rcases List.mem_append.1 hx with hx | hx
      · exact ih x hx
      · cases List.mem_singleton.1 hx
        exact ⟨none, rfl, t.code_bracketed hu⟩
    | run h =>
      have split : ∀ {l r : List (LThread E Q Ent)} {t t' : LThread E Q Ent},
          (∀ x ∈ l ++ t :: r, x.Bracketed) → (t.Bracketed → t'.Bracketed) → ∀ x ∈ l ++ t' :: r, x.Bracketed := by
        intro l r t t' h1 h2 x hx
        rcases List.mem_append.1 hx with hx | hx
        · exact h1 x (by simp [hx])
        · rcases List.mem_cons.1 hx with rfl | hx
          · exact h2 (h1 t (by simp))
          · exact h1 x (by simp [hx])
      cases h with
      | acquire c l r t w k g h =>
        refine split ih fun ⟨g', h1, h2⟩ => ?_
        cases g' with
        | none => exact ⟨some w, congrArg (w :: ·) h1, h2⟩
        | some w' => cases w' <;> cases h2
      | release c l r t k w g =>
        refine split ih fun ⟨g', h1, h2⟩ => ?_
        cases g' with
        | none => cases h1
        | some w' =>
          refine ⟨none, (List.cons.inj h1).2, ?_⟩
          cases w' <;> exact h2
      | load c l r t f g =>
        refine split ih fun ⟨g', h1, h2⟩ => ⟨g', h1, ?_⟩
        cases g' with
        | none => cases h2
        | some w' => cases w' <;> exact h2 c
      | store c l r t f k g =>
        refine split ih fun ⟨g', h1, h2⟩ => ⟨g', h1, ?_⟩
        cases g' with
        | none => cases h2
        | some w' =>
          cases w' with
          | false => cases h2
          | true => exact h2
      | pause c l r t k g =>
        refine split ih fun ⟨g', h1, h2⟩ => ⟨g', h1, ?_⟩
        cases g' with
        | none => cases h2
        | some w' => cases w' <;> exact h2

/-! ### no deadlock -/

theorem split_mem {α : Type} {x : α} {l : List α} (h : x ∈ l) : ∃ a b, l = a ++ x :: b := List.append_of_mem h

/-- C87: as long as `Clone`, `Drop` and `Debug` of values do not use the cache, no reachable state is a deadlock:
some thread can go on, or all are done -/
theorem C87_no_deadlock (hu : u.Quiet) (s : LConf E Q Ent) (h : LReachable strict A u J s) :
    (∀ t ∈ s.threads, t.Finished) ∨ ∃ s', LRun strict s s' := by
  have hb := h.bracketed hu
  obtain ⟨c, ts⟩ := s
  by_contra hno
  rw [not_or, not_exists] at hno
  obtain ⟨hf, hno⟩ := hno
  -- whoever holds a guard can go on
  have hfree : ∀ t ∈ ts, t.guards = [] ∧ t.code.Bracketed none := by
    intro t ht
    obtain ⟨g, h1, h2⟩ := hb t ht
    cases g with
    | none => exact ⟨h1, h2⟩
    | some w =>
      exfalso
      obtain ⟨a, b, rfl⟩ := split_mem ht
      obtain ⟨task, code, guards⟩ := t
      simp only at h1 h2
      subst h1
      cases code with
      | ret x => cases w <;> cases h2
      | acquire w' k => cases w <;> cases h2
      | release k => exact hno _ (.release c a b task k w [])
      | load f => exact hno _ (.load c a b task f [w])
      | store f k => exact hno _ (.store c a b task f k [w])
      | pause k => exact hno _ (.pause c a b task k [w])
  -- so all that are not done wait, and nobody holds a guard
  have hwait : ∀ t ∈ ts, t.Finished ∨ ∃ w k, t.code = .acquire w k := by
    intro t ht
    obtain ⟨h1, h2⟩ := hfree t ht
    obtain ⟨task, code, guards⟩ := t
    simp only at h2
    cases code with
    | ret x => exact .inl ⟨x, rfl⟩
    | acquire w k => exact .inr ⟨w, k, rfl⟩
    | release k => cases h2
    | load f => cases h2
    | store f k => cases h2
    | pause k => cases h2
  have hnow : ∀ t ∈ ts, ∀ k, t.code ≠ .acquire true k := by
    rintro ⟨task, code, guards⟩ ht k hk
    obtain ⟨a, b, rfl⟩ := split_mem ht
    obtain ⟨k', hk'⟩ : ∃ k' : LProg (Shared E Q Ent) task.Out, code = .acquire true k' := ⟨k, hk⟩
    clear hk k
    subst hk'
    exact hno _ (.acquire c a b task true k' guards (fun x hx => (hfree x hx).1))
  refine hf ?_
  rintro ⟨task, code, guards⟩ ht
  rcases hwait _ ht with h | ⟨w, k, hk⟩
  · exact h
  · exfalso
    cases w with
    | true => exact hnow _ ht k hk
    | false =>
      obtain ⟨a, b, rfl⟩ := split_mem ht
      obtain ⟨k', hk'⟩ : ∃ k' : LProg (Shared E Q Ent) task.Out, code = .acquire false k' := ⟨k, hk⟩
      clear hk k
      subst hk'
      refine hno _ (.acquire c a b task false k' guards ⟨fun x hx => ?_, fun _ => hnow⟩)
      rw [(hfree x hx).1]
      simp

/-- the code left after a step -/
inductive LProg.Next {S α : Type} : LProg S α → LProg S α → Prop
  | acquire (w k) : Next k (.acquire w k)
  | release (k) : Next k (.release k)
  | load (f s) : Next (f s) (.load f)
  | store (f k) : Next k (.store f k)
  | pause (k) : Next k (.pause k)

theorem LProg.next_wf {S α : Type} : WellFounded (LProg.Next (S := S) (α := α)) := by
  constructor
  intro p
  induction p with
  | ret x => exact ⟨_, fun _ h => by cases h⟩
  | acquire w k ih => exact ⟨_, fun _ h => by cases h; exact ih⟩
  | release k ih => exact ⟨_, fun _ h => by cases h; exact ih⟩
  | load f ih => exact ⟨_, fun _ h => by cases h; exact ih _⟩
  | store f k ih => exact ⟨_, fun _ h => by cases h; exact ih⟩
  | pause k ih => exact ⟨_, fun _ h => by cases h; exact ih⟩

omit [DecidableEq Q] [DecidableEq Ent] in
/-- the threads before and after a step -/
def LThread.Next (t' t : LThread E Q Ent) : Prop :=
  ∃ task, ∃ code' code : LProg (Shared E Q Ent) task.Out, ∃ g g',
    t' = ⟨task, code', g'⟩ ∧ t = ⟨task, code, g⟩ ∧ LProg.Next code' code

omit [DecidableEq Q] [DecidableEq Ent] in
theorem LThread.next_wf : WellFounded (LThread.Next (E := E) (Q := Q) (Ent := Ent)) := by
  constructor
  rintro ⟨task, code, g⟩
  induction code using LProg.next_wf.induction generalizing g with
  | _ code ih =>
    refine ⟨_, ?_⟩
    rintro t ⟨task', c', c, g1, g2, rfl, h, hn⟩
    cases h
    exact ih c' hn g2

omit [DecidableEq Q] [DecidableEq Ent] in
/-- C87: threads cannot go on for ever without new ones being started, whatever the user code does -/
theorem C87_terminates : WellFounded (fun s' s : LConf E Q Ent => LRun strict s s') := by
  refine Subrelation.wf (r := InvImage (Relation.CutExpand LThread.Next)
    (fun s : LConf E Q Ent => (s.threads : Multiset (LThread E Q Ent)))) ?_
    (InvImage.wf _ LThread.next_wf.cutExpand)
  intro s' s h
  have key : ∀ (l r : List (LThread E Q Ent)) (t t' : LThread E Q Ent), LThread.Next t' t →
      Relation.CutExpand LThread.Next ((l ++ t' :: r : List _) : Multiset (LThread E Q Ent))
        ((l ++ t :: r : List _) : Multiset (LThread E Q Ent)) := by
    intro l r t t' ht
    refine ⟨{t'}, t, by simpa using ht, ?_⟩
    simp only [← Multiset.coe_add, ← Multiset.cons_coe, ← Multiset.singleton_add]
    ac_rfl
  cases h with
  | acquire c l r t w k g h => exact key _ _ _ _ ⟨t, k, _, g, _, rfl, rfl, .acquire w k⟩
  | release c l r t k w g => exact key _ _ _ _ ⟨t, k, _, _, _, rfl, rfl, .release k⟩
  | load c l r t f g => exact key _ _ _ _ ⟨t, f c, _, _, _, rfl, rfl, .load f c⟩
  | store c l r t f k g => exact key _ _ _ _ ⟨t, k, _, _, _, rfl, rfl, .store f k⟩
  | pause c l r t k g => exact key _ _ _ _ ⟨t, k, _, _, _, rfl, rfl, .pause k⟩

/-- C87: so, however they are scheduled, all threads end -/
theorem C87_completes (hu : u.Quiet) (s : LConf E Q Ent) (h : LReachable strict A u J s) :
    ∃ s', Relation.ReflTransGen (LRun strict) s s' ∧ LReachable strict A u J s' ∧
      ∀ t ∈ s'.threads, t.Finished := by
  induction s using (C87_terminates (strict := strict)).induction with
  | _ s ih =>
    rcases C87_no_deadlock hu s h with hf | ⟨s', hs⟩
    · exact ⟨s, .refl, h, hf⟩
    · obtain ⟨s'', h1, h2, h3⟩ := ih s' hs (h.step (.run hs))
      exact ⟨s'', .head hs h1, h2, h3⟩

/-! ### exclusion -/

/-- C87: whatever the user code does, a write guard is the only guard given out -/
theorem C87_exclusive (s : LConf E Q Ent) (h : LReachable strict A u J s) (ht : ∃ t ∈ s.threads, true ∈ t.guards) :
    s.threads.flatMap (·.guards) = [true] := by
  suffices H : true ∈ s.threads.flatMap (·.guards) → s.threads.flatMap (·.guards) = [true] by
    obtain ⟨t, h1, h2⟩ := ht
    exact H (List.mem_flatMap.2 ⟨t, h1, h2⟩)
  clear ht
  induction h with
  | init => intro h; cases h
  | step _ hs ih =>
    cases hs with
    | start c ts t => simpa using ih
    | run h =>
      cases h with
      | acquire c l r t w k g h =>
        cases w with
        | true =>
          intro _
          simp only [LConf.Grants, if_true] at h
          have h1 : l.flatMap (·.guards) = [] := List.flatMap_eq_nil_iff.2 fun x hx => h x (by simp [hx])
          have h2 : r.flatMap (·.guards) = [] := List.flatMap_eq_nil_iff.2 fun x hx => h x (by simp [hx])
          have h3 : g = [] := h ⟨t, .acquire true k, g⟩ (by simp)
          simp [h1, h2, h3]
        | false =>
          intro hm
          exfalso
          simp only [LConf.Grants, Bool.false_eq_true, if_false] at h
          obtain ⟨x, hx, hg⟩ := List.mem_flatMap.1 hm
          rcases List.mem_append.1 hx with hx | hx
          · exact h.1 x (by simp [hx]) hg
          · rcases List.mem_cons.1 hx with rfl | hx
            · exact h.1 ⟨t, .acquire false k, g⟩ (by simp) (by simpa using hg)
            · exact h.1 x (by simp [hx]) hg
      | release c l r t k w g =>
        intro hm
        exfalso
        have h1 := ih (by
          obtain ⟨x, hx, hg⟩ := List.mem_flatMap.1 hm
          refine List.mem_flatMap.2 ?_
          rcases List.mem_append.1 hx with hx | hx
          · exact ⟨x, by simp [hx], hg⟩
          · rcases List.mem_cons.1 hx with rfl | hx
            · exact ⟨_, List.mem_append_right _ List.mem_cons_self, List.mem_cons_of_mem _ hg⟩
            · exact ⟨x, by simp [hx], hg⟩)
        have h2 := congrArg List.length h1
        simp only [List.flatMap_append, List.flatMap_cons, List.length_append, List.length_cons,
          List.length_nil] at h2
        have h3 := List.length_pos_of_mem hm
        simp only [List.flatMap_append, List.flatMap_cons, List.length_append] at h3
        omega
      | load c l r t f g => simpa using ih
      | store c l r t f k g => simpa using ih
      | pause c l r t k g => simpa using ih

/-- C87: the map is only looked at under a guard and only changed under the write guard, and who has finished
holds no guard -/
theorem C87_guarded (hu : u.Quiet) (s : LConf E Q Ent) (h : LReachable strict A u J s) :
    ∀ t ∈ s.threads, ((∃ f, t.code = .load f) → ∃ w, t.guards = [w]) ∧
      ((∃ f k, t.code = .store f k) → t.guards = [true]) ∧ (t.Finished → t.guards = []) := by
  intro t ht
  obtain ⟨g, h1, h2⟩ := h.bracketed hu t ht
  refine ⟨?_, ?_, ?_⟩
  · rintro ⟨f, hf⟩
    rw [hf] at h2
    cases g with
    | none => cases h2
    | some w => exact ⟨w, h1⟩
  · rintro ⟨f, k, hf⟩
    rw [hf] at h2
    cases g with
    | none => cases h2
    | some w =>
      cases w with
      | false => cases h2
      | true => exact h1
  · rintro ⟨x, hf⟩
    rw [hf] at h2
    cases g with
    | none => exact h1
    | some w => cases w <;> cases h2

/-! ### nobody sees values that have been dropped -/

/-- With `n` of the values in the map dropped, the code looks at the map only if `n = 0`, and leaves no dropped
values behind. -/
def LProg.Tidy {α : Type} : Nat → LProg (Shared E Q Ent) α → Prop
  | n, .ret _ => n = 0
  | n, .acquire _ k => n = 0 ∧ k.Tidy 0
  | n, .release k => n = 0 ∧ k.Tidy 0
  | n, .load f => n = 0 ∧ ∀ s, s.dropped = 0 → (f s).Tidy 0
  | n, .store f k => ∀ c, c.dropped = n → k.Tidy (f c).dropped
  | n, .pause k => k.Tidy n

theorem LProg.Quiet.tidy {α : Type} {v : LProg (Shared E Q Ent) Unit} (hv : v.Quiet) {n : Nat}
    {k : LProg (Shared E Q Ent) α} (hk : k.Tidy n) : (v.andThen k).Tidy n := by
  induction v with
  | ret x => exact hk
  | pause v ih => exact ih hv
  | _ => cases hv

theorem clearThen_tidy (hu : u.Quiet) {α : Type} {k : LProg (Shared E Q Ent) α} (hk : k.Tidy 0) :
    (clearThen u k).Tidy 0 := by
  have key : ∀ (l : Cache E Q Ent) (n : Nat), (LProg.forEach (dropEntry u) l
      (.store (fun _ => ⟨[], 0⟩) (.release k)) : LProg (Shared E Q Ent) α).Tidy n := by
    intro l
    induction l with
    | nil => exact fun _ _ _ => ⟨rfl, hk⟩
    | cons e l ih =>
      intro n
      change ((dropEntry u e.1 e.2).andThen _).Tidy n
      rw [dropEntry_andThen]
      exact (hu.drop _ _).tidy fun c' _ => ih _
  exact ⟨rfl, rfl, fun c _ => key c.map 0⟩

theorem CProg.locked_tidy (hu : u.Quiet) {α : Type} (p : CProg E Q Ent α) : (p.locked A u).Tidy 0 := by
  induction p with
  | ret x => rfl
  | fail x => rfl
  | get k f ih =>
    refine ⟨rfl, rfl, fun c _ => ?_⟩
    refine LProg.Quiet.tidy ?_ (show LProg.Tidy 0 (.release _) from ⟨rfl, ih _⟩)
    cases HMap.get (CacheKey.eq A) c.map k with
    | none => exact trivial
    | some b => exact hu.clone k b
  | put k b f ih =>
    refine ⟨rfl, (hu.clone k b).tidy ?_⟩
    intro c hc
    exact ⟨hc, ih⟩
  | clear f ih => exact clearThen_tidy hu ih

theorem Task.code_tidy (hu : u.Quiet) (t : Task E Q Ent) : (t.code A u J).Tidy 0 := by
  cases t with
  | query n r => exact CProg.locked_tidy hu _
  | clear => exact clearThen_tidy hu rfl
  | debug =>
    have key : ∀ l : Cache E Q Ent, (LProg.forEach u.debug l (.release (.ret ())) :
        LProg (Shared E Q Ent) Unit).Tidy 0 := by
      intro l
      induction l with
      | nil => exact ⟨rfl, rfl⟩
      | cons e l ih => exact (hu.debug _ _).tidy ih
    exact ⟨rfl, rfl, fun c _ => key c.map⟩

/-- what holds of each thread while `n` of the values in the map are dropped: only who holds the write guard knows
of them -/
def LThread.Tidy (n : Nat) (t : LThread E Q Ent) : Prop :=
  t.code.Tidy (if t.guards = [true] then n else 0)

theorem LReachable.tidy (hu : u.Quiet) {s : LConf E Q Ent} (h : LReachable strict A u J s) :
    (∀ t ∈ s.threads, t.Tidy s.cache.dropped) ∧
      (s.cache.dropped ≠ 0 → ∃ t ∈ s.threads, t.guards = [true]) := by
  induction h with
  | init => exact ⟨fun t ht => (by cases ht), fun h => absurd rfl h⟩
  | @step s s' hr hs ih =>
    have hb := hr.bracketed hu
    have hx := C87_exclusive s hr
    obtain ⟨ih1, ih2⟩ := ih
    cases hs with
    | start c ts t =>
      refine ⟨fun x hx => ?_, fun h => ?_⟩
      · rcases List.mem_append.1 hx with hx | hx
        · exact ih1 x hx
        · cases List.mem_singleton.1 hx
          exact t.code_tidy hu
      · obtain ⟨x, h1, h2⟩ := ih2 h
        exact ⟨x, List.mem_append_left _ h1, h2⟩
    | run h =>
      -- a step of one thread that leaves the number of dropped values alone
      have same : ∀ {n : Nat} {l r : List (LThread E Q Ent)} {a b : LThread E Q Ent},
          (∀ t ∈ l ++ a :: r, t.Tidy n) → (n ≠ 0 → ∃ t ∈ l ++ a :: r, t.guards = [true]) →
          (a.Tidy n → b.Tidy n) → (n ≠ 0 → a.Tidy n → a.guards = [true] → b.guards = [true]) →
          (∀ t ∈ l ++ b :: r, t.Tidy n) ∧ (n ≠ 0 → ∃ t ∈ l ++ b :: r, t.guards = [true]) := by
        intro n l r a b h1 h2 h3 h4
        refine ⟨fun t ht => ?_, fun hn => ?_⟩
        · rcases List.mem_append.1 ht with ht | ht
          · exact h1 t (by simp [ht])
          · rcases List.mem_cons.1 ht with rfl | ht
            · exact h3 (h1 a (by simp))
            · exact h1 t (by simp [ht])
        · obtain ⟨t, ht, hg⟩ := h2 hn
          rcases List.mem_append.1 ht with ht | ht
          · exact ⟨t, by simp [ht], hg⟩
          · rcases List.mem_cons.1 ht with rfl | ht
            · exact ⟨b, by simp, h4 hn (h1 _ (by simp)) hg⟩
            · exact ⟨t, by simp [ht], hg⟩
      cases h with
      | acquire c l r t w k g h =>
        have hn : w = true → c.dropped = 0 := by
          rintro rfl
          by_contra hn
          obtain ⟨x, h1, h2⟩ := ih2 hn
          have : x.guards = [] := h x h1
          rw [this] at h2
          cases h2
        refine same ih1 ih2 (fun ht => ?_) (fun h0 ht hg => ?_)
        · have ht : _ ∧ _ := ht
          change k.Tidy _
          cases w with
          | true => rw [hn rfl, ite_self]; exact ht.2
          | false => rw [if_neg (by simp)]; exact ht.2
        · have hg : g = [true] := hg
          subst hg
          exact absurd ht.1 h0
      | release c l r t k w g =>
        refine same ih1 ih2 (fun ht => ?_) (fun h0 ht hg => ?_)
        · have h1 := ht.2
          obtain ⟨o, h2, h3⟩ := hb ⟨t, .release k, w :: g⟩ (by simp)
          have : g = [] := by
            cases o with
            | none => cases h2
            | some v => exact (List.cons.inj h2).2
          subst this
          exact h1
        · have hg : w :: g = [true] := hg
          rw [LThread.Tidy, if_pos hg] at ht
          exact absurd ht.1 h0
      | load c l r t f g =>
        refine same ih1 ih2 (fun ht => ?_) (fun _ _ hg => hg)
        have h0 := ht.1
        have h1 := ht.2
        have hd : c.dropped = 0 := by
          by_contra hn
          obtain ⟨x, h2, h3⟩ := ih2 hn
          by_cases hg : g = [true]
          · simp only [hg, if_true] at h0
            exact hn h0
          · obtain ⟨o, h4, h5⟩ := hb ⟨t, .load f, g⟩ (by simp)
            have hf : g = [false] := by
              cases o with
              | none => cases h5
              | some v =>
                cases v with
                | true => exact absurd h4 hg
                | false => exact h4
            have h6 := hx ⟨x, h2, by rw [h3]; exact List.mem_cons_self⟩
            have h7 : false ∈ (l ++ (⟨t, .load f, g⟩ : LThread E Q Ent) :: r).flatMap (·.guards) :=
              List.mem_flatMap.2 ⟨⟨t, .load f, g⟩, by simp, by rw [hf]; exact List.mem_cons_self⟩
            change false ∈ _ at h7
            simp only at h6
            rw [h6] at h7
            simp at h7
        change (f c).Tidy _
        rw [hd, ite_self]
        exact h1 c hd
      | store c l r t f k g =>
        obtain ⟨o, h4, h5⟩ := hb ⟨t, .store f k, g⟩ (by simp)
        have hg : g = [true] := by
          cases o with
          | none => cases h5
          | some v =>
            cases v with
            | true => exact h4
            | false => cases h5
        subst hg
        have h6 := hx ⟨⟨t, .store f k, [true]⟩, by simp, List.mem_cons_self⟩
        have h7 : ∀ y ∈ l ++ r, y.guards = [] := by
          have h8 := congrArg List.length h6
          simp only [List.flatMap_append, List.flatMap_cons, List.length_append, List.length_cons,
            List.length_nil] at h8
          intro y hy
          rcases List.mem_append.1 hy with hy | hy
          · exact List.flatMap_eq_nil_iff.1 (List.length_eq_zero_iff.1 (by omega : (l.flatMap (·.guards)).length = 0)) y hy
          · exact List.flatMap_eq_nil_iff.1 (List.length_eq_zero_iff.1 (by omega : (r.flatMap (·.guards)).length = 0)) y hy
        refine ⟨fun y hy => ?_, fun _ => ⟨⟨t, k, [true]⟩, by simp, rfl⟩⟩
        have other : ∀ y, y ∈ l ++ r → y.Tidy (f c).dropped := by
          intro y hy
          have h8 := ih1 y (by rcases List.mem_append.1 hy with hy | hy <;> simp [hy])
          rw [LThread.Tidy, h7 y hy] at h8 ⊢
          exact h8
        rcases List.mem_append.1 hy with hy | hy
        · exact other y (by simp [hy])
        · rcases List.mem_cons.1 hy with rfl | hy
          · have h8 := ih1 ⟨t, .store f k, [true]⟩ (by simp)
            exact h8 c rfl
          · exact other y (by simp [hy])
      | pause c l r t k g => exact same ih1 ih2 (fun ht => ht) (fun _ _ hg => hg)

/-- C87: whoever looks at the map finds no value that has been dropped; while values are being dropped, exactly one
thread holds a guard -/
theorem C87_alive (hu : u.Quiet) (s : LConf E Q Ent) (h : LReachable strict A u J s) :
    (∀ t ∈ s.threads, (∃ f, t.code = .load f) → s.cache.dropped = 0) ∧
    (s.cache.dropped ≠ 0 → s.threads.flatMap (·.guards) = [true]) := by
  obtain ⟨h1, h2⟩ := h.tidy hu
  refine ⟨fun t ht => ?_, fun hn => ?_⟩
  · rintro ⟨f, hf⟩
    by_contra hn
    obtain ⟨x, h3, h4⟩ := h2 hn
    have h5 := C87_exclusive s h ⟨x, h3, by rw [h4]; exact List.mem_cons_self⟩
    obtain ⟨w, h6⟩ := (C87_guarded hu s h t ht).1 ⟨f, hf⟩
    have h7 : w ∈ s.threads.flatMap (·.guards) := List.mem_flatMap.2 ⟨t, ht, by rw [h6]; exact List.mem_cons_self⟩
    rw [h5, List.mem_singleton] at h7
    subst h7
    have h8 := h1 t ht
    rw [LThread.Tidy, hf, if_pos h6] at h8
    exact hn h8.1
  · obtain ⟨x, h3, h4⟩ := h2 hn
    exact C87_exclusive s h ⟨x, h3, by rw [h4]; exact List.mem_cons_self⟩

/-! ### every interleaving of the parts of accesses has the effect of an interleaving of whole accesses -/

omit [DecidableEq Q] [DecidableEq Ent] in
theorem LProg.Quiet.cases {S α : Type} {v : LProg S Unit} (hv : v.Quiet) (k : LProg S α) :
    v.andThen k = k ∨ ∃ v' : LProg S Unit, v'.Quiet ∧ v.andThen k = .pause (v'.andThen k) := by
  cases v with
  | ret x => exact .inl rfl
  | pause v => exact .inr ⟨v, hv, rfl⟩
  | _ => cases hv

/-- the code under a read guard, once it has been obtained -/
def CProg.afterRead (A : Addr E) (u : UserCode E Q Ent) {α : Type} (k : CacheKey E Q Ent)
    (f : Option (Buf E) → CProg E Q Ent α) : LProg (Shared E Q Ent) (Res α) :=
  .load fun c => (match HMap.get (CacheKey.eq A) c.map k with
    | some b => u.clone k b
    | none => .ret ()).andThen <| .release ((f (HMap.get (CacheKey.eq A) c.map k)).locked A u)

/-- the code under a write guard, once the value has been cloned -/
def CProg.afterClone (A : Addr E) (u : UserCode E Q Ent) {α : Type} (k : CacheKey E Q Ent) (b : Buf E)
    (f : CProg E Q Ent α) : LProg (Shared E Q Ent) (Res α) :=
  .store (fun c => { c with map := (HMap.insert (CacheKey.eq A) c.map k b).1 }) <| .release (f.locked A u)

/-- the code under a write guard, once all values have been dropped -/
def CProg.afterDrops (A : Addr E) (u : UserCode E Q Ent) {α : Type} (f : CProg E Q Ent α) :
    LProg (Shared E Q Ent) (Res α) :=
  .store (fun _ => ⟨[], 0⟩) <| .release (f.locked A u)

/-- the code under a write guard while values are being dropped, `l` being still to come after the current one -/
def CProg.amidDrops (A : Addr E) (u : UserCode E Q Ent) {α : Type} (l : Cache E Q Ent) (f : CProg E Q Ent α) :
    LProg (Shared E Q Ent) (Res α) :=
  .store (fun c => { c with dropped := c.dropped + 1 }) <| .forEach (dropEntry u) l (CProg.afterDrops A u f)

/-- `code` is what remains of `p`, of which the current access may have had its effect already -/
inductive CProg.Sim (A : Addr E) (u : UserCode E Q Ent) {α : Type} (p : CProg E Q Ent α)
    (code : LProg (Shared E Q Ent) (Res α)) (g : List Bool) : Prop
  | out (hc : code = p.locked A u) (hg : g = [])
  | read (k f) (hp : p = .get k f) (hc : code = CProg.afterRead A u k f) (hg : g = [false])
  | done (v : LProg (Shared E Q Ent) Unit) (w) (hv : v.Quiet) (hc : code = v.andThen (.release (p.locked A u)))
      (hg : g = [w])
  | write (v : LProg (Shared E Q Ent) Unit) (k b f) (hp : p = .put k b f) (hv : v.Quiet)
      (hc : code = v.andThen (CProg.afterClone A u k b f)) (hg : g = [true])
  | wipe (f) (hp : p = .clear f) (hc : code = .load fun c => .forEach (dropEntry u) c.map (CProg.afterDrops A u f))
      (hg : g = [true])
  | drops (v : LProg (Shared E Q Ent) Unit) (l f) (hp : p = .clear f) (hv : v.Quiet)
      (hc : code = v.andThen (CProg.amidDrops A u l f)) (hg : g = [true])
  | dropped (f) (hp : p = .clear f) (hc : code = CProg.afterDrops A u f) (hg : g = [true])

section sim
variable {α : Type} {p : CProg E Q Ent α} {g : List Bool}

theorem CProg.Sim.forEach (hu : u.Quiet) (l : Cache E Q Ent) {f : CProg E Q Ent α} (hp : p = .clear f)
    (hg : g = [true]) : p.Sim A u (.forEach (dropEntry u) l (CProg.afterDrops A u f)) g := by
  cases l with
  | nil => exact .dropped f hp rfl hg
  | cons e l => exact .drops _ l f hp (hu.drop e.1 e.2) (dropEntry_andThen _ _ _) hg

theorem CProg.Sim.acquire {w : Bool} {k : LProg (Shared E Q Ent) (Res α)} (h : p.Sim A u (.acquire w k) g)
    (hu : u.Quiet) : p.Sim A u k (w :: g) := by
  cases h with
  | out hc hg =>
    subst hg
    cases p with
    | ret x => cases hc
    | fail x => cases hc
    | get key f => cases hc; exact .read key f rfl rfl rfl
    | put key b f => cases hc; exact .write _ key b f rfl (hu.clone key b) rfl rfl
    | clear f => cases hc; exact .wipe f rfl rfl rfl
  | read key f hp hc hg => cases hc
  | done v w hv hc hg => rcases hv.cases (.release (p.locked A u)) with h | ⟨v', _, h⟩ <;> rw [h] at hc <;> cases hc
  | write v key b f hp hv hc hg =>
    rcases hv.cases (CProg.afterClone A u key b f) with h | ⟨v', _, h⟩ <;> rw [h] at hc <;> cases hc
  | wipe f hp hc hg => cases hc
  | drops v l f hp hv hc hg =>
    rcases hv.cases (CProg.amidDrops A u l f) with h | ⟨v', hv', h⟩ <;> rw [h] at hc <;> cases hc
  | dropped f hp hc hg => cases hc

theorem CProg.Sim.release {w : Bool} {k : LProg (Shared E Q Ent) (Res α)} (h : p.Sim A u (.release k) (w :: g)) :
    p.Sim A u k g := by
  cases h with
  | out hc hg => cases hg
  | read key f hp hc hg => cases hc
  | done v w hv hc hg =>
    rcases hv.cases (.release (p.locked A u)) with h | ⟨v', _, h⟩ <;> rw [h] at hc <;> cases hc
    cases hg
    exact .out rfl rfl
  | write v key b f hp hv hc hg =>
    rcases hv.cases (CProg.afterClone A u key b f) with h | ⟨v', _, h⟩ <;> rw [h] at hc <;> cases hc
  | wipe f hp hc hg => cases hc
  | drops v l f hp hv hc hg =>
    rcases hv.cases (CProg.amidDrops A u l f) with h | ⟨v', hv', h⟩ <;> rw [h] at hc <;> cases hc
  | dropped f hp hc hg => cases hc

theorem CProg.Sim.pause {k : LProg (Shared E Q Ent) (Res α)} (h : p.Sim A u (.pause k) g) : p.Sim A u k g := by
  cases h with
  | out hc hg => cases p <;> cases hc
  | read key f hp hc hg => cases hc
  | done v w hv hc hg =>
    rcases hv.cases (.release (p.locked A u)) with h | ⟨v', hv', h⟩ <;> rw [h] at hc <;> cases hc
    exact .done v' w hv' rfl hg
  | write v key b f hp hv hc hg =>
    rcases hv.cases (CProg.afterClone A u key b f) with h | ⟨v', hv', h⟩ <;> rw [h] at hc <;> cases hc
    exact .write v' key b f hp hv' rfl hg
  | wipe f hp hc hg => cases hc
  | drops v l f hp hv hc hg =>
    rcases hv.cases (CProg.amidDrops A u l f) with h | ⟨v', hv', h⟩ <;> rw [h] at hc <;> cases hc
    exact .drops v' l f hp hv' rfl hg
  | dropped f hp hc hg => cases hc

theorem CProg.Sim.load {f : Shared E Q Ent → LProg (Shared E Q Ent) (Res α)} (h : p.Sim A u (.load f) g)
    (hu : u.Quiet) : 
      (∃ k f', p = .get k f' ∧ ∀ c, (f' (HMap.get (CacheKey.eq A) c.map k)).Sim A u (f c) g) ∨
      ∀ c, p.Sim A u (f c) g := by
  cases h with
  | out hc hg => cases p <;> cases hc
  | read key f' hp hc hg =>
    cases hc
    refine .inl ⟨key, f', hp, fun c => .done _ false ?_ rfl hg⟩
    cases HMap.get (CacheKey.eq A) c.map key with
    | none => exact trivial
    | some b => exact hu.clone key b
  | done v w hv hc hg =>
    rcases hv.cases (.release (p.locked A u)) with h | ⟨v', hv', h⟩ <;> rw [h] at hc <;> cases hc
  | write v key b f hp hv hc hg =>
    rcases hv.cases (CProg.afterClone A u key b f) with h | ⟨v', hv', h⟩ <;> rw [h] at hc <;> cases hc
  | wipe f' hp hc hg =>
    cases hc
    exact .inr fun c => .forEach hu c.map hp hg
  | drops v l f hp hv hc hg =>
    rcases hv.cases (CProg.amidDrops A u l f) with h | ⟨v', hv', h⟩ <;> rw [h] at hc <;> cases hc
  | dropped f hp hc hg => cases hc

theorem CProg.Sim.store {f : Shared E Q Ent → Shared E Q Ent} {k : LProg (Shared E Q Ent) (Res α)}
    (h : p.Sim A u (.store f k) g) (hu : u.Quiet) :
      (∃ key b p', p = .put key b p' ∧
        f = (fun c => { c with map := (HMap.insert (CacheKey.eq A) c.map key b).1 }) ∧ p'.Sim A u k g) ∨
      (p.Sim A u k g ∧ ∀ c, (f c).map = c.map) ∨
      ∃ p', p = .clear p' ∧ p'.Sim A u k g ∧ ∀ c, (f c).map = [] := by
  cases h with
  | out hc hg => cases p <;> cases hc
  | read key f' hp hc hg => cases hc
  | done v w hv hc hg =>
    rcases hv.cases (.release (p.locked A u)) with h | ⟨v', hv', h⟩ <;> rw [h] at hc <;> cases hc
  | write v key b f hp hv hc hg =>
    rcases hv.cases (CProg.afterClone A u key b f) with h | ⟨v', hv', h⟩ <;> rw [h] at hc <;> cases hc
    exact .inl ⟨key, b, f, hp, rfl, .done (.ret ()) true trivial rfl hg⟩
  | wipe f hp hc hg => cases hc
  | drops v l f hp hv hc hg =>
    rcases hv.cases (CProg.amidDrops A u l f) with h | ⟨v', hv', h⟩ <;> rw [h] at hc <;> cases hc
    exact .inr (.inl ⟨.forEach hu l hp hg, fun _ => rfl⟩)
  | dropped f hp hc hg =>
    cases hc
    exact .inr (.inr ⟨f, hp, .done (.ret ()) true trivial rfl hg, fun _ => rfl⟩)

theorem CProg.Sim.ret {x : Res α} (h : p.Sim A u (.ret x) g) : p = CProg.lift x := by
  cases h with
  | out hc hg => cases p <;> cases hc <;> rfl
  | read key f' hp hc hg => cases hc
  | done v w hv hc hg =>
    rcases hv.cases (.release (p.locked A u)) with h | ⟨v', hv', h⟩ <;> rw [h] at hc <;> cases hc
  | write v key b f hp hv hc hg =>
    rcases hv.cases (CProg.afterClone A u key b f) with h | ⟨v', hv', h⟩ <;> rw [h] at hc <;> cases hc
  | wipe f hp hc hg => cases hc
  | drops v l f hp hv hc hg =>
    rcases hv.cases (CProg.amidDrops A u l f) with h | ⟨v', hv', h⟩ <;> rw [h] at hc <;> cases hc
  | dropped f hp hc hg => cases hc

end sim

/-- all the code ever does to the map is to empty it -/
def LProg.Empties {α : Type} : LProg (Shared E Q Ent) α → Prop
  | .ret _ => True
  | .acquire _ k => k.Empties
  | .release k => k.Empties
  | .load f => ∀ s, (f s).Empties
  | .store f k => ((∀ c, (f c).map = []) ∨ ∀ c, (f c).map = c.map) ∧ k.Empties
  | .pause k => k.Empties

theorem LProg.Quiet.empties {α : Type} {v : LProg (Shared E Q Ent) Unit} (hv : v.Quiet)
    {k : LProg (Shared E Q Ent) α} (hk : k.Empties) : (v.andThen k).Empties := by
  induction v with
  | ret x => exact hk
  | pause v ih => exact ih hv
  | _ => cases hv

theorem LProg.forEach_empties {α K V : Type} {p : K → V → LProg (Shared E Q Ent) Unit}
    (hp : ∀ a b (k : LProg (Shared E Q Ent) α), k.Empties → ((p a b).andThen k).Empties) (l : List (K × V))
    {k : LProg (Shared E Q Ent) α} (hk : k.Empties) : (LProg.forEach p l k).Empties := by
  induction l with
  | nil => exact hk
  | cons e l ih => exact hp _ _ _ ih

theorem clearLocked_empties (hu : u.Quiet) : (clearLocked u).Empties := by
  refine fun c => LProg.forEach_empties (fun k b p hp => ?_) c.map ⟨.inl fun _ => rfl, trivial⟩
  rw [dropEntry_andThen]
  exact (hu.drop k b).empties ⟨.inr fun _ => rfl, hp⟩

theorem debugLocked_empties (hu : u.Quiet) : (debugLocked u).Empties :=
  fun c => LProg.forEach_empties (fun k b _ hp => (hu.debug k b).empties hp) c.map trivial

omit [DecidableEq Q] [DecidableEq Ent] in
/-- The threads `l` stand for the queries `l'`, which are related by `R`; clearing and printing threads do not
count. -/
inductive Lin (R : (n : Nat) → (r : Req E Q Ent) → LProg (Shared E Q Ent) (Res r.Resp) → List Bool →
    CProg E Q Ent r.Resp → Prop) (O : LThread E Q Ent → Prop) :
    List (LThread E Q Ent) → List (Thread E Q Ent) → Prop
  | nil : Lin R O [] []
  | query {l l'} (n r code g p) (h : R n r code g p) : Lin R O l l' →
      Lin R O (⟨.query n r, code, g⟩ :: l) (⟨n, r, p⟩ :: l')
  | clear {l l'} (code g) (h : O ⟨.clear, code, g⟩) : Lin R O l l' → Lin R O (⟨.clear, code, g⟩ :: l) l'
  | debug {l l'} (code g) (h : O ⟨.debug, code, g⟩) : Lin R O l l' → Lin R O (⟨.debug, code, g⟩ :: l) l'

section lin
variable {R : (n : Nat) → (r : Req E Q Ent) → LProg (Shared E Q Ent) (Res r.Resp) → List Bool →
    CProg E Q Ent r.Resp → Prop} {O : LThread E Q Ent → Prop}

omit [DecidableEq Q] [DecidableEq Ent] in
theorem Lin.append {l r : List (LThread E Q Ent)} {l' r' : List (Thread E Q Ent)} (h1 : Lin R O l l')
    (h2 : Lin R O r r') : Lin R O (l ++ r) (l' ++ r') := by
  induction h1 with
  | nil => exact h2
  | query n r code g p h _ ih => exact .query n r code g p h ih
  | clear code g h _ ih => exact .clear code g h ih
  | debug code g h _ ih => exact .debug code g h ih

omit [DecidableEq Q] [DecidableEq Ent] in
theorem Lin.split {l r : List (LThread E Q Ent)} {L : List (Thread E Q Ent)} (h : Lin R O (l ++ r) L) :
    ∃ l' r', L = l' ++ r' ∧ Lin R O l l' ∧ Lin R O r r' := by
  induction l generalizing L with
  | nil => exact ⟨[], L, rfl, .nil, h⟩
  | cons t l ih =>
    cases h with
    | query n r code g p h1 h2 =>
      obtain ⟨l', r', rfl, h3, h4⟩ := ih h2
      exact ⟨_ :: l', r', rfl, .query n r code g p h1 h3, h4⟩
    | clear code g h1 h2 =>
      obtain ⟨l', r', rfl, h3, h4⟩ := ih h2
      exact ⟨l', r', rfl, .clear code g h1 h3, h4⟩
    | debug code g h1 h2 =>
      obtain ⟨l', r', rfl, h3, h4⟩ := ih h2
      exact ⟨l', r', rfl, .debug code g h1 h3, h4⟩

omit [DecidableEq Q] [DecidableEq Ent] in
theorem Lin.mono {R' : (n : Nat) → (r : Req E Q Ent) → LProg (Shared E Q Ent) (Res r.Resp) → List Bool →
    CProg E Q Ent r.Resp → Prop} {O' : LThread E Q Ent → Prop} (hR : ∀ n r code g p, R n r code g p → R' n r code g p)
    (hO : ∀ t, O t → O' t) {l : List (LThread E Q Ent)} {l' : List (Thread E Q Ent)} (h : Lin R O l l') :
    Lin R' O' l l' := by
  induction h with
  | nil => exact .nil
  | query n r code g p h _ ih => exact .query n r code g p (hR _ _ _ _ _ h) ih
  | clear code g h _ ih => exact .clear code g (hO _ h) ih
  | debug code g h _ ih => exact .debug code g (hO _ h) ih

end lin

theorem LReachable.sim (hJ : J.Right A) (hu : u.Quiet) {s : LConf E Q Ent} (h : LReachable strict A u J s) :
    ∃ s', Reachable A J s' ∧ s'.cache = s.cache.map ∧
      Lin (fun _ _ code g p => p.Sim A u code g) (fun t => LProg.Empties t.code) s.threads s'.threads := by
  induction h with
  | init => exact ⟨_, .init, rfl, .nil⟩
  | step _ hs ih =>
    obtain ⟨⟨c', ts'⟩, hr, rfl, hl⟩ := ih
    cases hs with
    | start c ts t =>
      cases t with
      | query n r => exact ⟨_, hr.step (.start _ _ n r), rfl, hl.append (.query _ _ _ _ _ (.out rfl rfl) .nil)⟩
      | clear =>
        refine ⟨_, hr, rfl, ?_⟩
        have := hl.append (.clear (clearLocked u) []
          (clearLocked_empties hu) .nil)
        rwa [List.append_nil] at this
      | debug =>
        refine ⟨_, hr, rfl, ?_⟩
        have := hl.append (.debug (debugLocked u) []
          (debugLocked_empties hu) .nil)
        rwa [List.append_nil] at this
    | run h =>
      have hset : ∀ (a b : List (Thread E Q Ent)) (t t' : Thread E Q Ent),
          (a ++ t :: b).set a.length t' = a ++ t' :: b := by intro a b t t'; simp
      have hget : ∀ (a b : List (Thread E Q Ent)) (t : Thread E Q Ent),
          (a ++ t :: b)[a.length]? = some t := by intro a b t; simp
      cases h with
      | acquire c l r t w k g h =>
        obtain ⟨l', r', rfl, h1, h2⟩ := hl.split
        cases h2 with
        | query n r code g p h h2 => exact ⟨_, hr, rfl, h1.append (.query _ _ _ _ _ (h.acquire hu) h2)⟩
        | clear code g h h2 => exact ⟨_, hr, rfl, h1.append (.clear _ _ h h2)⟩
        | debug code g h h2 => exact ⟨_, hr, rfl, h1.append (.debug _ _ h h2)⟩
      | release c l r t k w g =>
        obtain ⟨l', r', rfl, h1, h2⟩ := hl.split
        cases h2 with
        | query n r code g p h h2 => exact ⟨_, hr, rfl, h1.append (.query _ _ _ _ _ h.release h2)⟩
        | clear code g h h2 => exact ⟨_, hr, rfl, h1.append (.clear _ _ h h2)⟩
        | debug code g h h2 => exact ⟨_, hr, rfl, h1.append (.debug _ _ h h2)⟩
      | pause c l r t k g =>
        obtain ⟨l', r', rfl, h1, h2⟩ := hl.split
        cases h2 with
        | query n r code g p h h2 => exact ⟨_, hr, rfl, h1.append (.query _ _ _ _ _ h.pause h2)⟩
        | clear code g h h2 => exact ⟨_, hr, rfl, h1.append (.clear _ _ h h2)⟩
        | debug code g h h2 => exact ⟨_, hr, rfl, h1.append (.debug _ _ h h2)⟩
      | load c l r t f g =>
        obtain ⟨l', r', rfl, h1, h2⟩ := hl.split
        cases h2 with
        | @query _ l2 n r code g p h h2 =>
          rcases h.load hu with ⟨k, f', rfl, h3⟩ | h3
          swap
          · exact ⟨_, hr, rfl, h1.append (.query _ _ _ _ _ (h3 _) h2)⟩
          have hs := Step.get (A := A) (J := J) c.map _ l'.length n r k f' (hget l' l2 _)
          rw [hset] at hs
          exact ⟨_, hr.step hs, rfl, h1.append (.query _ _ _ _ _ (h3 _) h2)⟩
        | clear code g h h2 => exact ⟨_, hr, rfl, h1.append (.clear _ _ (h _) h2)⟩
        | debug code g h h2 => exact ⟨_, hr, rfl, h1.append (.debug _ _ (h _) h2)⟩
      | store c l r t f k g =>
        obtain ⟨l', r', rfl, h1, h2⟩ := hl.split
        cases h2 with
        | @query _ l2 n r code g p h h2 =>
          rcases h.store hu with ⟨key, b, p', rfl, rfl, h3⟩ | ⟨h3, he⟩ | ⟨p', rfl, h3, he⟩
          rotate_left
          · exact ⟨_, hr, (he _).symm, h1.append (.query _ _ _ _ _ h3 h2)⟩
          · have hs := Step.wipe (A := A) (J := J) c.map [] _ l'.length n r p' (hget l' l2 _)
              ((hr.invariant hJ).1.typed.clear)
            rw [hset] at hs
            exact ⟨_, hr.step hs, (he _).symm, h1.append (.query _ _ _ _ _ h3 h2)⟩
          have hs := Step.put (A := A) (J := J) c.map _ l'.length n r key b p' (hget l' l2 _)
          rw [hset] at hs
          exact ⟨_, hr.step hs, rfl, h1.append (.query _ _ _ _ _ h3 h2)⟩
        | clear code g h h2 =>
          rcases h.1 with he | he
          · exact ⟨_, hr.step (.clear _ _ _ (hr.invariant hJ).1.typed.clear), (he _).symm, h1.append (.clear _ _ h.2 h2)⟩
          · exact ⟨_, hr, (he _).symm, h1.append (.clear _ _ h.2 h2)⟩
        | debug code g h h2 =>
          rcases h.1 with he | he
          · exact ⟨_, hr.step (.clear _ _ _ (hr.invariant hJ).1.typed.clear), (he _).symm, h1.append (.debug _ _ h.2 h2)⟩
          · exact ⟨_, hr, (he _).symm, h1.append (.debug _ _ h.2 h2)⟩

/-- C88: Whatever the interleaving of the parts of accesses by several threads, there is one of whole accesses
(`Reachable`, C50) with the same contents of the cache, in which each thread that holds no guard is at the same
place of its query, and each query that has finished has the same result. -/
theorem C88_linearizable (hJ : J.Right A) (hu : u.Quiet) (s : LConf E Q Ent) (h : LReachable strict A u J s) :
    ∃ s', Reachable A J s' ∧ s'.cache = s.cache.map ∧
      Lin (fun _ _ code g p => (g = [] → code = p.locked A u) ∧ ∀ x, code = .ret x → p = CProg.lift x)
        (fun _ => True) s.threads s'.threads := by
  obtain ⟨s', h1, h2, h3⟩ := h.sim hJ hu
  refine ⟨s', h1, h2, h3.mono (fun n r code g p h => ⟨fun hg => ?_, fun x hx => ?_⟩) (fun _ _ => trivial)⟩
  · subst hg
    cases h with
    | out hc _ => exact hc
    | read _ _ _ _ hg => cases hg
    | done _ _ _ _ hg => cases hg
    | write _ _ _ _ _ _ _ hg => cases hg
    | wipe _ _ _ hg => cases hg
    | drops _ _ _ _ _ _ hg => cases hg
    | dropped _ _ _ hg => cases hg
  · subst hx
    exact h.ret

omit [DecidableEq Q] [DecidableEq Ent] in
theorem Lin.mem {R : (n : Nat) → (r : Req E Q Ent) → LProg (Shared E Q Ent) (Res r.Resp) → List Bool →
    CProg E Q Ent r.Resp → Prop} {O : LThread E Q Ent → Prop} {l : List (LThread E Q Ent)}
    {l' : List (Thread E Q Ent)} (h : Lin R O l l') {n : Nat} {r : Req E Q Ent}
    {code : LProg (Shared E Q Ent) (Res r.Resp)} {g : List Bool} (hm : (⟨.query n r, code, g⟩ : LThread E Q Ent) ∈ l) :
    ∃ p, R n r code g p ∧ (⟨n, r, p⟩ : Thread E Q Ent) ∈ l' := by
  induction h with
  | nil => cases hm
  | query n' r' code' g' p h _ ih =>
    rcases List.mem_cons.1 hm with hm | hm
    · cases hm
      exact ⟨p, h, List.mem_cons_self⟩
    · obtain ⟨p, h1, h2⟩ := ih hm
      exact ⟨p, h1, List.mem_cons_of_mem _ h2⟩
  | clear code' g' h _ ih =>
    rcases List.mem_cons.1 hm with hm | hm
    · cases hm
    · exact ih hm
  | debug code' g' h _ ih =>
    rcases List.mem_cons.1 hm with hm | hm
    · cases hm
    · exact ih hm

/-- C88: so each query that has finished has the result it has without a cache -/
theorem C88_results (hJ : J.Right A) (hu : u.Quiet) (s : LConf E Q Ent) (h : LReachable strict A u J s) (n : Nat)
    (r : Req E Q Ent) (x : Res r.Resp) (g : List Bool)
    (hm : (⟨.query n r, .ret x, g⟩ : LThread E Q Ent) ∈ s.threads) : Faithful A J n r x := by
  obtain ⟨s', h1, h2, h3⟩ := h.sim hJ hu
  obtain ⟨p, h4, h5⟩ := h3.mem hm
  have h6 := C50_concurrent_partial hJ s' h1 _ h5
  have h7 := h4.ret
  cases x with
  | ok a => exact h6.1 a h7
  | error e => exact h6.2 e h7

/-! ### user code that uses the cache -/

/-- C87: a thread that asks for a guard while it holds one, at least one of the two being a write guard, never
gets on, whatever the other threads do -/
theorem C87_waits_for_itself (s s' : LConf E Q Ent) (i : Nat) (t : Task E Q Ent) (w : Bool)
    (k : LProg (Shared E Q Ent) t.Out) (g : List Bool) (hi : s.threads[i]? = some ⟨t, .acquire w k, g⟩)
    (hg : true ∈ g ∨ w = true ∧ g ≠ []) (h : Relation.ReflTransGen (LStep strict A u J) s s') :
    s'.threads[i]? = some ⟨t, .acquire w k, g⟩ := by
  induction h with
  | refl => exact hi
  | tail _ hs ih =>
    clear hi
    have key : ∀ (l r : List (LThread E Q Ent)) (a b : LThread E Q Ent),
        (l ++ a :: r)[i]? = some ⟨t, .acquire w k, g⟩ → (a ≠ ⟨t, .acquire w k, g⟩) →
        (l ++ b :: r)[i]? = some ⟨t, .acquire w k, g⟩ := by
      intro l r a b h1 h2
      rcases Nat.lt_trichotomy i l.length with h | h | h
      · rwa [List.getElem?_append_left h] at h1 ⊢
      · subst h
        simp only [List.getElem?_append_right (Nat.le_refl _), Nat.sub_self, List.getElem?_cons_zero,
          Option.some.injEq] at h1
        exact absurd h1 h2
      · rw [List.getElem?_append_right (Nat.le_of_lt h)] at h1 ⊢
        obtain ⟨m, hm⟩ : ∃ m, i - l.length = m + 1 := ⟨i - l.length - 1, by omega⟩
        rw [hm] at h1 ⊢
        exact h1
    cases hs with
    | start c ts t' =>
      rw [List.getElem?_append_left]
      · exact ih
      · exact (List.getElem?_eq_some_iff.1 ih).1
    | run h =>
      cases h with
      | acquire c l r t' w' k' g' h =>
        refine key l r _ _ ih fun he => ?_
        cases he
        cases w with
        | true =>
          have : g = [] := h ⟨t, .acquire true k, g⟩ (by simp)
          subst this
          rcases hg with hg | ⟨_, hg⟩
          · cases hg
          · exact hg rfl
        | false =>
          have := h.1 ⟨t, .acquire false k, g⟩ (by simp)
          rcases hg with hg | ⟨hg, _⟩
          · exact this hg
          · cases hg
      | release c l r t' k' w' g' => exact key l r _ _ ih fun he => by cases he
      | load c l r t' f g' => exact key l r _ _ ih fun he => by cases he
      | store c l r t' f k' g' => exact key l r _ _ ih fun he => by cases he
      | pause c l r t' k' g' => exact key l r _ _ ih fun he => by cases he

def LConf.mayGrant (strict : Bool) (s : LConf E Q Ent) (w : Bool) : Bool :=
  s.threads.all fun t => if w then t.guards.isEmpty else !t.guards.contains true && !(strict &&
    (match t.code with | .acquire true _ => true | _ => false))

/-- the step of thread `i`, if it can make one -/
def LConf.stepAt (strict : Bool) (s : LConf E Q Ent) (i : Nat) : Option (LConf E Q Ent) :=
  match s.threads.drop i with
  | [] => none
  | ⟨t, .acquire w k, g⟩ :: r =>
    if s.mayGrant strict w then some ⟨s.cache, s.threads.take i ++ ⟨t, k, w :: g⟩ :: r⟩ else none
  | ⟨t, .release k, _ :: g⟩ :: r => some ⟨s.cache, s.threads.take i ++ ⟨t, k, g⟩ :: r⟩
  | ⟨t, .load f, g⟩ :: r => some ⟨s.cache, s.threads.take i ++ ⟨t, f s.cache, g⟩ :: r⟩
  | ⟨t, .store f k, g⟩ :: r => some ⟨f s.cache, s.threads.take i ++ ⟨t, k, g⟩ :: r⟩
  | ⟨t, .pause k, g⟩ :: r => some ⟨s.cache, s.threads.take i ++ ⟨t, k, g⟩ :: r⟩
  | _ => none

omit [DecidableEq Q] [DecidableEq Ent] in
theorem LConf.stepAt_sound {s s' : LConf E Q Ent} {i : Nat} (h : s.stepAt strict i = some s') :
    LRun strict s s' := by
  obtain ⟨c, ts⟩ := s
  have ht := List.take_append_drop i ts
  unfold LConf.stepAt at h
  simp only at h
  split at h
  · cases h
  · rename_i t w k g r hd
    rw [hd] at ht
    split at h
    · rename_i hall
      cases h
      conv => arg 2; rw [← ht]
      refine .acquire c _ r t w k g ?_
      rw [ht]
      rw [LConf.mayGrant, List.all_eq_true] at hall
      cases w with
      | true =>
        intro x hx
        simpa using hall x hx
      | false =>
        refine ⟨fun x hx hm => ?_, fun hs x hx k hk => ?_⟩
        · have := hall x hx
          simp at this
          exact this.1 hm
        · have := hall x hx
          subst hs
          rw [hk] at this
          simp at this
    · cases h
  · rename_i t k w g r hd; rw [hd] at ht; cases h; conv => arg 2; rw [← ht]
    exact .release ..
  · rename_i t f g r hd; rw [hd] at ht; cases h; conv => arg 2; rw [← ht]
    exact .load ..
  · rename_i t f k g r hd; rw [hd] at ht; cases h; conv => arg 2; rw [← ht]
    exact .store ..
  · rename_i t k g r hd; rw [hd] at ht; cases h; conv => arg 2; rw [← ht]
    exact .pause ..
  · cases h

/-- threads make steps, if they can, and are started, in the given order -/
def LConf.play (strict : Bool) (A : Addr E) (u : UserCode E Q Ent) (J : Joined E Q Ent) :
    List (Nat ⊕ Task E Q Ent) → LConf E Q Ent → LConf E Q Ent
  | [], s => s
  | .inl i :: l, s => LConf.play strict A u J l ((s.stepAt strict i).getD s)
  | .inr t :: l, s => LConf.play strict A u J l ⟨s.cache, s.threads ++ [⟨t, t.code A u J, []⟩]⟩

theorem LReachable.play {s : LConf E Q Ent} (h : LReachable strict A u J s) (l : List (Nat ⊕ Task E Q Ent)) :
    LReachable strict A u J (s.play strict A u J l) := by
  induction l generalizing s with
  | nil => exact h
  | cons a l ih =>
    cases a with
    | inl i =>
      refine ih ?_
      cases hx : s.stepAt strict i with
      | none => exact h
      | some x => exact h.step (.run (LConf.stepAt_sound hx))
    | inr t => exact ih (h.step (.start s.cache s.threads t))

/-! ### concrete cases, in the demo world -/

/-- the code of the values takes a while and does not use the cache -/
def demoQuiet : UserCode demo (BitVec 8) Nat :=
  ⟨fun _ _ => .pause (.ret ()), fun _ _ => .pause (.ret ()), fun _ _ => .pause (.ret ())⟩

theorem demoQuiet_quiet : demoQuiet.Quiet := ⟨fun _ _ => trivial, fun _ _ => trivial, fun _ _ => trivial⟩

def demoTask : Task demo (BitVec 8) Nat := .query 1 (.stat 0 demoQ (demoInt 0))

/-- a lookup in the cache -/
def demoLookup : LProg (Shared demo (BitVec 8) Nat) Unit := .acquire false (.load fun _ => .release (.ret ()))

/-- Two queries hold read guards at the same time. -/
example (strict : Bool) : ∃ s : LConf demo (BitVec 8) Nat, LReachable strict demoAddr demoQuiet demoJoined s ∧
    s.threads.map (·.guards) = [[false], [false]] := by
  cases strict <;> exact ⟨_, LReachable.init.play [.inr demoTask, .inr demoTask, .inl 0, .inl 1], rfl⟩

/-- Two queries, a clear and someone printing the cache.  The queries have looked at the empty cache at the same
time and found nothing; the first has stored its result and finished, the second holds the write guard to store
its own; the clear and the printing wait, although there is something for them to do. -/
example (strict : Bool) : ∃ s : LConf demo (BitVec 8) Nat, LReachable strict demoAddr demoQuiet demoJoined s ∧
    s.cache.map.length = 1 ∧ ∃ f k1 k2 k3, s.threads =
      [⟨demoTask, .ret (.ok (some ⟨211, -2147483648, 2147483647, 1⟩ : Option StatInt)), []⟩,
        ⟨demoTask, .store f k1, [true]⟩, ⟨.clear, .acquire true k2, []⟩, ⟨.debug, .acquire false k3, []⟩] := by
  cases strict <;> exact ⟨_, LReachable.init.play [.inr demoTask, .inr demoTask, .inl 0, .inl 1, .inl 0, .inl 1,
    .inl 1, .inl 0, .inl 0, .inl 0, .inl 0, .inl 0, .inr .clear, .inr .debug, .inl 1, .inl 1, .inl 2, .inl 3], rfl,
    _, _, _, _, rfl⟩

/-- A clear in progress: the value of the only entry has been dropped, the entry is still there, and a query has to
wait. -/
example (strict : Bool) : ∃ s : LConf demo (BitVec 8) Nat, LReachable strict demoAddr demoQuiet demoJoined s ∧
    s.cache.map.length = 1 ∧ s.cache.dropped = 1 ∧ ∃ x f k1 k2, s.threads =
      [⟨demoTask, .ret x, []⟩, ⟨.clear, .store f k1, [true]⟩, ⟨demoTask, .acquire false k2, []⟩] := by
  cases strict <;> exact ⟨_, LReachable.init.play [.inr demoTask, .inl 0, .inl 0, .inl 0, .inl 0, .inl 0, .inl 0,
    .inl 0, .inr .clear, .inr demoTask, .inl 1, .inl 1, .inl 1, .inl 1, .inl 2], rfl, rfl, _, _, _, _, rfl⟩

/-- a `Clone` that looks something up in the cache -/
def demoReentrant : UserCode demo (BitVec 8) Nat :=
  ⟨fun _ _ => demoLookup, fun _ _ => .ret (), fun _ _ => .ret ()⟩

theorem LReachable.steps {s s' : LConf E Q Ent} (h : LReachable strict A u J s)
    (hs : Relation.ReflTransGen (LStep strict A u J) s s') : LReachable strict A u J s' := by
  induction hs with
  | refl => exact h
  | tail _ hs ih => exact ih.step hs

/-- C87: with a `Clone` that looks something up in the cache, the first query that stores its result waits for
ever, holding the write guard; whoever comes later never gets a guard either -/
theorem C87_reentrant_deadlock (strict : Bool) :
    ∃ s : LConf demo (BitVec 8) Nat, LReachable strict demoAddr demoReentrant demoJoined s ∧
      demoJoined.Safe demoAddr ∧ s.threads.length = 1 ∧ (∀ t ∈ s.threads, ¬ t.Finished) ∧
      (∀ s', ¬ LRun strict s s') ∧
      ∀ s', Relation.ReflTransGen (LStep strict demoAddr demoReentrant demoJoined) s s' →
        s'.threads[0]? = s.threads[0]? ∧ ∀ t ∈ s'.threads.tail, t.guards = [] := by
  obtain ⟨s, hs, k, hk⟩ : ∃ s : LConf demo (BitVec 8) Nat, LReachable strict demoAddr demoReentrant demoJoined s ∧
      ∃ k, s.threads = [⟨demoTask, .acquire false k, [true]⟩] := by
    cases strict <;> exact ⟨_, LReachable.init.play [.inr demoTask, .inl 0, .inl 0, .inl 0, .inl 0], _, rfl⟩
  refine ⟨s, hs, demoJoined_safe, by rw [hk]; rfl, fun t ht => ?_, fun s' h => ?_, fun s' h => ?_⟩
  · rw [hk] at ht
    cases List.mem_singleton.1 ht
    rintro ⟨x, hx⟩
    cases hx
  · have single : ∀ {l r : List (LThread demo (BitVec 8) Nat)} {a b}, l ++ a :: r = [b] → a = b := by
      intro l r a b h
      cases l with
      | nil => exact (List.cons.inj h).1
      | cons x l => have := congrArg List.length h; simp at this
    cases h with
    | acquire c l r t w k' g h =>
      have he := single hk
      cases he
      exact h.1 _ (List.mem_append_right _ List.mem_cons_self) List.mem_cons_self
    | release c l r t k w g => cases single hk
    | load c l r t f g => cases single hk
    | store c l r t f k g => cases single hk
    | pause c l r t k g => cases single hk
  · have h0 := C87_waits_for_itself s s' 0 demoTask false k [true] (by rw [hk]; rfl) (.inl List.mem_cons_self) h
    refine ⟨by rw [h0, hk]; rfl, fun t ht => ?_⟩
    obtain ⟨c, ts⟩ := s'
    cases ts with
    | nil => cases ht
    | cons x ts =>
      cases h0
      have h1 := C87_exclusive _ (hs.steps h) ⟨_, List.mem_cons_self, List.mem_cons_self⟩
      simp only [List.flatMap_cons, List.cons_append, List.nil_append, List.cons.injEq, true_and,
        List.flatMap_eq_nil_iff] at h1
      exact h1 t ht

/-- a `Debug` that looks something up in the cache -/
def demoPrinting : UserCode demo (BitVec 8) Nat :=
  ⟨fun _ _ => .ret (), fun _ _ => .ret (), fun _ _ => demoLookup⟩

/-- C87: With a `Debug` that looks something up in the cache, printing the cache while another thread waits to
clear it blocks both for ever on platforms where readers wait for waiting writers; on others they go on. -/
theorem C87_nested_read_deadlock (strict : Bool) :
    ∃ s : LConf demo (BitVec 8) Nat, LReachable strict demoAddr demoPrinting demoJoined s ∧
      (∃ t ∈ s.threads, ¬ t.Finished) ∧ ((∃ s', LRun strict s s') ↔ strict = false) := by
  obtain ⟨s, hs, x, k1, k2, hk⟩ : ∃ s : LConf demo (BitVec 8) Nat,
      LReachable strict demoAddr demoPrinting demoJoined s ∧ ∃ x k1 k2, s.threads =
        [⟨demoTask, .ret x, []⟩, ⟨.debug, .acquire false k1, [false]⟩, ⟨.clear, .acquire true k2, []⟩] := by
    cases strict <;> exact ⟨_, LReachable.init.play [.inr demoTask, .inl 0, .inl 0, .inl 0, .inl 0, .inl 0, .inl 0,
      .inr .debug, .inl 1, .inl 1, .inr .clear], _, _, _, rfl⟩
  refine ⟨s, hs, ?_, ?_, ?_⟩
  · rw [hk]
    refine ⟨_, List.mem_cons_of_mem _ List.mem_cons_self, ?_⟩
    rintro ⟨x, hx⟩
    cases hx
  · rintro ⟨s', h⟩
    have mem : ∀ {l r : List (LThread demo (BitVec 8) Nat)} {a}, l ++ a :: r = s.threads → a ∈ s.threads := by
      intro l r a h
      rw [← h]
      exact List.mem_append_right _ List.mem_cons_self
    have all : ∀ t ∈ s.threads, t = ⟨demoTask, .ret x, []⟩ ∨ t = ⟨.debug, .acquire false k1, [false]⟩ ∨
        t = ⟨.clear, .acquire true k2, []⟩ := by
      intro t ht
      rw [hk] at ht
      simpa using ht
    have h1 : (⟨.debug, .acquire false k1, [false]⟩ : LThread demo (BitVec 8) Nat) ∈ s.threads := by simp [hk]
    have h2 : (⟨.clear, .acquire true k2, []⟩ : LThread demo (BitVec 8) Nat) ∈ s.threads := by simp [hk]
    cases h with
    | acquire c l r t w k' g h =>
      rcases all _ (mem rfl) with he | he | he <;> cases he
      · cases strict with
        | false => rfl
        | true => exact absurd rfl (h.2 rfl _ h2 k2)
      · exact absurd (h _ h1) (by simp)
    | release c l r t k w g => rcases all _ (mem rfl) with he | he | he <;> cases he
    | load c l r t f g => rcases all _ (mem rfl) with he | he | he <;> cases he
    | store c l r t f k g => rcases all _ (mem rfl) with he | he | he <;> cases he
    | pause c l r t k g => rcases all _ (mem rfl) with he | he | he <;> cases he
  · rintro rfl
    obtain ⟨c, ts⟩ := s
    cases hk
    refine ⟨_, .acquire c [⟨demoTask, .ret x, []⟩] _ .debug false k1 [false] ⟨fun t ht => ?_, fun h => by cases h⟩⟩
    rcases List.mem_cons.1 ht with rfl | ht
    · simp
    · rcases List.mem_cons.1 ht with rfl | ht
      · simp
      · cases List.mem_singleton.1 ht
        simp

end BSQ
