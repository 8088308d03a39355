import Verif.Spec.Contents
import Verif.Props.Overlap
import Verif.Props.Nesting
/-!
# C116: what queries leave in the cache
-/
namespace BSQ
set_option linter.unusedSectionVars false
variable {E : Env} {Q Ent α β : Type} {A : Addr E} {J : Joined E Q Ent}

/-! ### code, and the keys known to be cached -/

/-- As long as the cache answers with right results, holds with each key `j` all keys `C j`, and loses nothing, the code
only stores keys in `L`, only after the keys `C` of them, and ends with an outcome and keys known to be cached that
satisfy `P`; the set is of those known to be cached so far. -/
def Sees (G : CacheKey E Q Ent → Option (Buf E) → Prop) (C : CacheKey E Q Ent → CacheKey E Q Ent → Prop)
    (L : CacheKey E Q Ent → Prop) (P : Res α → (CacheKey E Q Ent → Prop) → Prop) :
    (CacheKey E Q Ent → Prop) → CProg E Q Ent α → Prop
  | S, .ret a => P (.ok a) S
  | S, .fail e => P (.error e) S
  | S, .get j f => ∀ o, G j o → Sees G C L P (fun k => S k ∨ o ≠ none ∧ C j k) (f o)
  | S, .put j _ f => L j ∧ (∀ k, C j k → k = j ∨ S k) ∧ Sees G C L P (fun k => S k ∨ k = j) f
  | _, .clear _ => True

variable {G : CacheKey E Q Ent → Option (Buf E) → Prop} {C : CacheKey E Q Ent → CacheKey E Q Ent → Prop}
  {L L' : CacheKey E Q Ent → Prop} {P : Res α → (CacheKey E Q Ent → Prop) → Prop}
  {R : Res β → (CacheKey E Q Ent → Prop) → Prop} {S : CacheKey E Q Ent → Prop}

theorem Sees.bind {x : CProg E Q Ent α} {f : α → CProg E Q Ent β} (hx : Sees G C L P S x)
    (hf : ∀ a S', P (.ok a) S' → Sees G C L R S' (f a)) (he : ∀ e S', P (.error e) S' → R (.error e) S') :
    Sees G C L R S (x.bind f) := by
  induction x generalizing S with
  | ret a => exact hf a S hx
  | fail e => exact he e S hx
  | get j g ih => exact fun o ho => ih o (hx o ho)
  | put j b g ih => exact ⟨hx.1, hx.2.1, ih hx.2.2⟩
  | clear g ih => trivial

theorem Sees.mono {P' : Res α → (CacheKey E Q Ent → Prop) → Prop} {x : CProg E Q Ent α} (hx : Sees G C L P S x)
    (hL : ∀ k, L k → L' k) (hP : ∀ y S', P y S' → P' y S') : Sees G C L' P' S x := by
  induction x generalizing S with
  | ret a => exact hP _ _ hx
  | fail e => exact hP _ _ hx
  | get j g ih => exact fun o ho => ih o (hx o ho)
  | put j b g ih => exact ⟨hL _ hx.1, hx.2.1, ih hx.2.2⟩
  | clear g ih => trivial

theorem Sees.and {P' : Res α → Prop} {x : CProg E Q Ent α} (hx : Sees G C L P S x) (h : Gives G P' x) :
    Sees G C L (fun y S' => P y S' ∧ P' y) S x := by
  induction x generalizing S with
  | ret a => exact ⟨hx, h⟩
  | fail e => exact ⟨hx, h⟩
  | get j g ih => exact fun o ho => ih o (hx o ho) (h o ho)
  | put j b g ih => exact ⟨hx.1, hx.2.1, ih hx.2.2 h.2⟩
  | clear g ih => trivial

theorem Sees.attempt {P' : Res (Option α) → (CacheKey E Q Ent → Prop) → Prop} {x : CProg E Q Ent α}
    (hx : Sees G C L P S x) (hP : ∀ y S', P y S' → P' y.attempt S') : Sees G C L P' S x.attempt := by
  induction x generalizing S with
  | ret a => exact hP _ _ hx
  | fail e => cases e <;> exact hP _ _ hx
  | get j g ih => exact fun o ho => ih o (hx o ho)
  | put j b g ih => exact ⟨hx.1, hx.2.1, ih hx.2.2⟩
  | clear g ih => trivial

/-! ### the code of queries -/

/-- the results that answering `r` involves -/
def Involved (A : Addr E) (J : Joined E Q Ent) (r : Req E Q Ent) (k : CacheKey E Q Ent) : Prop :=
  J.Needs A (.stat k.entity k.query k.stat) r ∧ ∃ m v, J.answer A m (.stat k.entity k.query k.stat) = .ok (some v)

/-- code that answers `X`, and makes the requests `M`, leaves their results in the cache, and forgets none of `S` -/
def Leaves (A : Addr E) (J : Joined E Q Ent) (X : Nat → Res α) (M : Req E Q Ent → Prop) (S : CacheKey E Q Ent → Prop)
    (y : Res α) (S' : CacheKey E Q Ent → Prop) : Prop :=
  (∀ k, S k → S' k) ∧ (y ≠ .error .fuel → (∃ m, X m = y) ∧ ∀ r, M r → ∀ k, Involved A J r k → S' k)

/-- results that come with a result -/
abbrev With (A : Addr E) (J : Joined E Q Ent) (j : CacheKey E Q Ent) : CacheKey E Q Ent → Prop :=
  Involved A J (.stat j.entity j.query j.stat)

theorem Prog.Makes.le {o o' : Oracle E Q Ent} (ho : ∀ r, Res.Le (o r) (o' r)) {r' : Req E Q Ent}
    {p : Prog E Q Ent α} (h : p.Makes o r') : p.Makes o' r' := by
  induction p with
  | ret a => exact h
  | fail e => exact h
  | ask r k ih =>
    rcases h with rfl | ⟨x, hx, h⟩
    · exact .inl rfl
    · exact .inr ⟨x, (ho r (by rw [hx]; simp)).trans hx, ih x h⟩
  | attempt r k ih =>
    rcases h with rfl | ⟨x, hx, h⟩
    · exact .inl rfl
    · exact .inr ⟨x, by rw [ho r fun hf => by rw [hf] at hx; cases hx]; exact hx, ih x h⟩
  | clear k ih => exact ih h
  | store e q p k ih => exact ⟨h.1, ih h.2⟩

theorem callsMake.le {m m' : Nat} (hm : m ≤ m') {r' : Req E Q Ent} {l : List (Call E Q Ent)} {p : Pair E}
    (h : callsMake (J.answer A m) r' l p) : callsMake (J.answer A m') r' l p := by
  induction l generalizing p with
  | nil => exact h
  | cons c l ih =>
    rcases h with h | ⟨x, hx, h⟩
    · exact .inl (h.le fun r => answer_mono r m _ hm)
    · exact .inr ⟨x, (DepthMono.eval answer_mono (c p) m _ hm (by simp only [hx]; simp)).trans hx, ih h⟩

theorem anyMake.le {m m' : Nat} (hm : m ≤ m') {r' : Req E Q Ent} {l : List (Prog E Q Ent Bool)}
    (h : anyMake (J.answer A m) r' l) : anyMake (J.answer A m') r' l := by
  induction l with
  | nil => exact h
  | cons c l ih =>
    rcases h with h | ⟨hx, h⟩
    · exact .inl (h.le fun r => answer_mono r m _ hm)
    · exact .inr ⟨(DepthMono.eval answer_mono c m _ hm (by simp only [hx]; simp)).trans hx, ih h⟩

/-- one piece of code after another -/
theorem Leaves.bind {X : Nat → Res α} {F : Nat → α → Res β} {M MN : Req E Q Ent → Prop}
    {N : α → Req E Q Ent → Prop} {x : CProg E Q Ent α} {f : α → CProg E Q Ent β}
    (hx : Sees G C L (Leaves A J X M S) S x) (hX : DepthMono X) (hF : ∀ a, DepthMono (fun n => F n a))
    (hM : ∀ r, MN r → M r ∨ ∃ a m, X m = .ok a ∧ N a r)
    (hf : ∀ a, (∃ m, X m = .ok a) → ∀ S', Sees G C L (Leaves A J (fun m => F m a) (N a) S') S' (f a)) :
    Sees G C L (Leaves A J (fun m => X m >>= F m) MN S) S (x.bind f) := by
  refine hx.bind (fun a S' hS' => ?_) (fun e S' hS' => ⟨hS'.1, fun hne => ?_⟩)
  · obtain ⟨h1, h2⟩ := hS'
    obtain ⟨⟨m0, hm0⟩, h2⟩ := h2 (by simp)
    refine (hf a ⟨m0, hm0⟩ S').mono (fun _ h => h) fun y S'' hS'' => ⟨fun k hk => hS''.1 k (h1 k hk), fun hne => ?_⟩
    obtain ⟨⟨m1, hm1⟩, h3⟩ := hS''.2 hne
    refine ⟨⟨max m0 m1, ?_⟩, fun r' hr' k' hk' => ?_⟩
    · have e1 : X (max m0 m1) = .ok a := (hX m0 _ (Nat.le_max_left _ _) (by rw [hm0]; simp)).trans hm0
      simp only [e1, Res.bind_ok]
      exact (hF a m1 _ (Nat.le_max_right _ _) (by simp only [hm1]; exact hne)).trans hm1
    · rcases hM r' hr' with hr' | ⟨a', m, hm, hr'⟩
      · exact hS''.1 _ (h2 _ hr' _ hk')
      · have : (.ok a' : Res _) = .ok a := by
          rw [← hm]
          exact hX.agree (by rw [hm]; simp) (by simp) hm0
        cases this
        exact h3 r' hr' k' hk'
  · obtain ⟨⟨m0, hm0⟩, h2⟩ := hS'.2 (fun h => hne (by cases h; rfl))
    refine ⟨⟨m0, by simp only [hm0]; rfl⟩, fun r' hr' k' hk' => ?_⟩
    rcases hM r' hr' with hr' | ⟨a', m, hm, hr'⟩
    · exact h2 _ hr' _ hk'
    · have : (.ok a' : Res _) = .error e := by
        rw [← hm]
        exact hX.agree (by rw [hm]; simp) (fun h => hne (by cases h; rfl)) hm0
      cases this

section code
variable {h : Handler E Q Ent} {n : Nat} {r : Req E Q Ent}
  (hh : ∀ r', J.Nests A r' r → ∀ S, Sees (ValidGet A J) (With A J) (fun k => J.Needs A (.stat k.entity k.query k.stat) r)
    (Leaves A J (fun m => J.answer A m r') (· = r') S) S (h r'))
include hh

theorem Sees.interp {p : Prog E Q Ent α} (hp : ∀ r' m, p.Makes (J.answer A m) r' → J.Nests A r' r)
    (hn : p.NoStore) (S : CacheKey E Q Ent → Prop) :
    Sees (ValidGet A J) (With A J) (fun k => J.Needs A (.stat k.entity k.query k.stat) r)
      (Leaves A J (fun m => p.eval (J.answer A m)) (fun r' => ∃ m, p.Makes (J.answer A m) r') S) S (p.interp h) := by
  induction p generalizing S with
  | ret a => exact ⟨fun _ h => h, fun _ => ⟨⟨0, rfl⟩, fun r' ⟨m, h⟩ => h.elim⟩⟩
  | fail e => exact ⟨fun _ h => h, fun _ => ⟨⟨0, rfl⟩, fun r' ⟨m, h⟩ => h.elim⟩⟩
  | ask r1 k ih =>
    refine Leaves.bind (F := fun m x => (k x).eval (J.answer A m)) (hh r1 (hp r1 0 (.inl rfl)) S) (answer_mono r1)
      (fun a => DepthMono.eval answer_mono (k a)) ?_ fun a ⟨m0, hm0⟩ S' =>
        ih a (fun r' m hm => hp r' (max m m0) (.inr ⟨a, ?_, ?_⟩)) (hn a) S'
    · rintro r' ⟨m, rfl | ⟨x, hx, hm⟩⟩
      · exact .inl rfl
      · exact .inr ⟨x, m, hx, m, hm⟩
    · exact (answer_mono r1 m0 _ (Nat.le_max_right _ _) (by simp only [hm0]; simp)).trans hm0
    · exact hm.le fun r => answer_mono r m _ (Nat.le_max_left _ _)
  | attempt r1 k ih =>
    have hat := (answer_mono (A := A) (J := J) r1).attempt
    refine Leaves.bind (X := fun m => (J.answer A m r1).attempt) (F := fun m x => (k x).eval (J.answer A m))
      (M := (· = r1)) ((hh r1 (hp r1 0 (.inl rfl)) S).attempt fun y S' hy => ⟨hy.1, fun hne => ?_⟩) hat
      (fun a => DepthMono.eval answer_mono (k a)) ?_ fun a ⟨m0, hm0⟩ S' =>
        ih a (fun r' m hm => hp r' (max m m0) (.inr ⟨a, ?_, ?_⟩)) (hn a) S'
    · obtain ⟨⟨m, hm⟩, h2⟩ := hy.2 fun h => hne (by rw [h]; rfl)
      exact ⟨⟨m, by simp only [hm]⟩, h2⟩
    · rintro r' ⟨m, rfl | ⟨x, hx, hm⟩⟩
      · exact .inl rfl
      · exact .inr ⟨x, m, hx, m, hm⟩
    · exact (hat m0 _ (Nat.le_max_right _ _) (by simp only [hm0]; simp)).trans hm0
    · exact hm.le fun r => answer_mono r m _ (Nat.le_max_left _ _)
  | clear k ih => trivial
  | store e q p k ih => exact hn.elim

theorem Sees.calls {l : List (Call E Q Ent)} (hn : ∀ c ∈ l, ∀ p, (c p).NoStore) (p : Pair E)
    (hp : ∀ r' m, callsMake (J.answer A m) r' l p → J.Nests A r' r) (S : CacheKey E Q Ent → Prop) :
    Sees (ValidGet A J) (With A J) (fun k => J.Needs A (.stat k.entity k.query k.stat) r)
      (Leaves A J (fun m => runCalls (J.answer A m) l p) (fun r' => ∃ m, callsMake (J.answer A m) r' l p) S) S
      (callsCode h l p) := by
  induction l generalizing p S with
  | nil => exact ⟨fun _ h => h, fun _ => ⟨⟨0, rfl⟩, fun r' ⟨m, h⟩ => h.elim⟩⟩
  | cons c l ih =>
    have hc := DepthMono.eval (answer_mono (A := A) (J := J)) (c p)
    refine Leaves.bind (F := fun m x => runCalls (J.answer A m) l x)
      (Sees.interp hh (fun r' m hm => hp r' m (.inl hm)) (hn c (by simp) p) S) hc
      (fun a => DepthMono.calls answer_mono l a) ?_ fun a ⟨m0, hm0⟩ S' =>
        ih (fun c hc => hn c (by simp [hc])) a (fun r' m hm => hp r' (max m m0) (.inr ⟨a, ?_, ?_⟩)) S'
    · rintro r' ⟨m, hm | ⟨x, hx, hm⟩⟩
      · exact .inl ⟨m, hm⟩
      · exact .inr ⟨x, m, hx, m, hm⟩
    · exact (hc m0 _ (Nat.le_max_right _ _) (by simp only [hm0]; simp)).trans hm0
    · exact hm.le (Nat.le_max_left _ _)

theorem Sees.any {l : List (Prog E Q Ent Bool)} (hn : ∀ c ∈ l, c.NoStore)
    (hp : ∀ r' m, anyMake (J.answer A m) r' l → J.Nests A r' r) (S : CacheKey E Q Ent → Prop) :
    Sees (ValidGet A J) (With A J) (fun k => J.Needs A (.stat k.entity k.query k.stat) r)
      (Leaves A J (fun m => anyCalls (J.answer A m) l) (fun r' => ∃ m, anyMake (J.answer A m) r' l) S) S
      (anyCode h l) := by
  induction l generalizing S with
  | nil => exact ⟨fun _ h => h, fun _ => ⟨⟨0, rfl⟩, fun r' ⟨m, h⟩ => h.elim⟩⟩
  | cons c l ih =>
    have hc := DepthMono.eval (answer_mono (A := A) (J := J)) c
    refine Leaves.bind (F := fun m b => if b then .ok true else anyCalls (J.answer A m) l)
      (N := fun b r' => b = false ∧ ∃ m, anyMake (J.answer A m) r' l)
      (Sees.interp hh (fun r' m hm => hp r' m (.inl hm)) (hn c (by simp)) S) hc
      (fun a => ?_) ?_ fun a ⟨m0, hm0⟩ S' => ?_
    · cases a
      · exact DepthMono.any answer_mono l
      · exact DepthMono.const _
    · rintro r' ⟨m, hm | ⟨hx, hm⟩⟩
      · exact .inl ⟨m, hm⟩
      · exact .inr ⟨false, m, hx, rfl, m, hm⟩
    · cases a
      · refine (ih (fun c hc => hn c (by simp [hc])) (fun r' m hm => hp r' (max m m0) (.inr ⟨?_, ?_⟩)) S').mono
          (fun _ h => h) fun y S'' hy => ⟨hy.1, fun hne => ⟨(hy.2 hne).1, fun r' hr' => (hy.2 hne).2 r' hr'.2⟩⟩
        · exact (hc m0 _ (Nat.le_max_right _ _) (by simp only [hm0]; simp)).trans hm0
        · exact hm.le (Nat.le_max_left _ _)
      · exact ⟨fun _ h => h, fun _ => ⟨⟨0, rfl⟩, fun r' h => by cases h.1⟩⟩

end code

/-- what a request involves is itself or involved in one made for it -/
theorem Involved.cases {r : Req E Q Ent} {k : CacheKey E Q Ent} (h : Involved A J r k) :
    r = .stat k.entity k.query k.stat ∧ (∃ m v, J.answer A m (.stat k.entity k.query k.stat) = .ok (some v)) ∨
    ∃ r', J.Nests A r' r ∧ Involved A J r' k := by
  obtain ⟨h1, h2⟩ := h
  rcases Relation.ReflTransGen.cases_tail h1 with h | ⟨r', h, h'⟩
  · exact .inl ⟨h, h2⟩
  · exact .inr ⟨r', h', h, h2⟩

theorem Sees.lift {x : Res α} (h : P x S) : Sees G C L P S (CProg.lift x : CProg E Q Ent α) := by
  cases x <;> exact h

/-- all results involved in requests made for `r` are in `S`, and that of `k`, if `p` -/
private def Got (A : Addr E) (J : Joined E Q Ent) (r : Req E Q Ent) (S : CacheKey E Q Ent → Prop) (p : Res α → Prop)
    (y : Res α) (S' : CacheKey E Q Ent → Prop) : Prop :=
  (∀ k, S k → S' k) ∧ (y ≠ .error .fuel → (∀ r', J.Nests A r' r → ∀ k, Involved A J r' k → S' k) ∧
    ∀ k : CacheKey E Q Ent, r = .stat k.entity k.query k.stat → p y → S' k)

/-- the outcome is a value -/
private def Found : Res (Option α) → Prop
  | .ok (some _) => True
  | _ => False

/-- the same for a stat -/
private def FoundStat : (r : Req E Q Ent) → Res r.Resp → Prop
  | .stat _ _ _, y => Found y
  | _, _ => False

private theorem Sees.validated {s : StatInst E} {r : Req E Q Ent} {f : Unit → CProg E Q Ent (Option s.Val)}
    (hr : ∀ r', J.Nests A r' r → Storable (E.layout s.ty))
    (hf : Storable (E.layout s.ty) → Sees G C L (Got A J r S Found) S (f ())) :
    Sees G C L (Got A J r S Found) S ((CProg.lift (validate (E.layout s.ty))).bind f) := by
  rw [validate_eq]
  split
  · rename_i hs; exact hf hs
  · rename_i hs
    exact ⟨fun _ h => h, fun _ => ⟨fun r' hr' => absurd (hr r' hr') hs, fun _ _ h => h.elim⟩⟩

private theorem Got.read {s : StatInst E} {r : Req E Q Ent} {x : CProg E Q Ent (Option (Buf E))}
    (hx : Sees G C L (Got A J r S Found) S x) :
    Sees G C L (Got A J r S Found) S (x.bind fun o => CProg.lift (StatMap.readAs s o)) := by
  refine hx.bind (fun o S' hS' => Sees.lift ⟨hS'.1, fun _ => ⟨(hS'.2 (by simp)).1, fun k hk hy => ?_⟩⟩) fun e S' hS' =>
    ⟨hS'.1, fun hne => ⟨(hS'.2 fun h => hne (by cases h; rfl)).1, fun _ _ h => h.elim⟩⟩
  cases o with
  | none => exact hy.elim
  | some b => exact (hS'.2 (by simp)).2 k hk trivial

section queries
variable (hJ : J.Safe A) (hn : J.NoStore) (hc : J.world.cached = true)
include hJ hn hc

/-- a query stores what it involves and nothing else, each result after what that involves -/
theorem handle_sees (n : Nat) (r : Req E Q Ent) (S : CacheKey E Q Ent → Prop) :
    Sees (ValidGet A J) (With A J) (fun k => J.Needs A (.stat k.entity k.query k.stat) r)
      (Leaves A J (fun m => J.answer A m r) (· = r) S) S (J.handle A n r) := by
  induction n generalizing r S with
  | zero => exact ⟨fun _ h => h, fun h => absurd rfl h⟩
  | succ n ih =>
    have hh : ∀ r', J.Nests A r' r → ∀ S, Sees (ValidGet A J) (With A J)
        (fun k => J.Needs A (.stat k.entity k.query k.stat) r)
        (Leaves A J (fun m => J.answer A m r') (· = r') S) S (J.handle A n r') := fun r' hr' S =>
      (ih r' S).mono (fun k hk => hk.tail hr') fun _ _ h => h
    suffices h : Sees (ValidGet A J) (With A J) (fun k => J.Needs A (.stat k.entity k.query k.stat) r)
        (Got A J r S (FoundStat r)) S
        (J.handle A (n + 1) r) by
      refine (h.and ((hJ.honest hn).right.faithful (n + 1) r).gives).mono (fun _ h => h) ?_
      rintro y S' ⟨⟨h1, h2⟩, -, h3⟩
      refine ⟨h1, fun hne => ⟨h3 hne, ?_⟩⟩
      rintro _ rfl k hk
      rcases hk.cases with ⟨rfl, m, v, hv⟩ | ⟨r', hr', hk⟩
      · refine (h2 hne).2 k rfl ?_
        obtain ⟨m', hm'⟩ := h3 hne
        obtain rfl : J.answer A m _ = y := (answer_mono (A := A) (J := J) _).agree (m := m) (by simp only [hv]; simp) hne hm'
        rw [hv]
        trivial
      · exact (h2 hne).1 r' hr' k hk
    cases r with
    | stat e q s =>
      suffices h : Sees (ValidGet A J) (With A J) (fun k => J.Needs A (.stat k.entity k.query k.stat) (.stat e q s))
          (Got A J (.stat e q s) S Found) S (J.handle A (n + 1) (.stat e q s)) from
        h.mono (fun _ h => h) fun y S' hy => ⟨hy.1, fun hne => ⟨(hy.2 hne).1, fun k hk h => (hy.2 hne).2 k hk h⟩⟩
      refine Sees.validated (fun r' ⟨m, hm⟩ => hm.1) fun hs => Got.read ?_
      rw [Joined.queryStatErased_around]
      split
      swap
      · rename_i he
        exact ⟨fun _ h => h, fun _ => ⟨fun r' ⟨m, hm⟩ => absurd hm.2.1 he, fun _ _ h => h.elim⟩⟩
      rename_i he
      obtain ⟨v, hv⟩ := hJ.startValue s hs
      unfold Joined.around Joined.lookup
      rw [if_pos hc]
      intro o ho
      cases o with
      | some b =>
        obtain ⟨v', hb, -, m', hm'⟩ := ho b rfl
        simp only at hb
        have hS : ∀ y : Res (Option (Buf E)), Got A J (.stat e q s) S Found y
            (fun k => S k ∨ (some b ≠ none ∧ With A J ⟨e, q, s⟩ k)) := fun y =>
          ⟨fun _ h => .inl h, fun _ => ⟨fun r' hr' k hk => .inr ⟨by simp, hk.1.tail hr', hk.2⟩, fun k hk _ =>
            .inr ⟨by simp, by rw [hk]; exact .refl, by cases k; cases hk; exact ⟨m', v', hm'⟩⟩⟩⟩
        simp only [Defaults.cloned]
        cases vtClone s.vt b with
        | ok b' => exact hS _
        | error x => exact hS _
      | none =>
        change Sees _ _ _ _ _ ((J.compute A (J.handle A n) e q s).bind fun p =>
          (J.remember e q p).bind fun x => CProg.ret (some p.value))
        rw [J.compute_eq, hv, CProg.lift_ok, CProg.bind_ret]
        have hm : ∀ r', J.Nests A r' (.stat e q s) →
            ∃ m, callsMake (J.answer A m) r' (J.statCalls e q) ⟨s, .val s.ty v⟩ := by
          rintro r' ⟨m, _, _, v', hv', hm⟩
          rw [hv] at hv'
          cases hv'
          exact ⟨m, hm⟩
        have hout := callsCode_safe (okGet := ValidGet A J) (okPut := fun _ _ => True) (h := J.handle A n) (X := fun _ => True)
          (hJ.statCalls e q) (p := ⟨s, .val s.ty v⟩) ⟨v, rfl⟩
          (fun r => (Gives.any _).mono fun x _ => by cases x <;> trivial) (fun _ _ => trivial)
          (fun c hc p => .inl fun _ _ _ => trivial)
        refine ((Sees.calls hh (hn.stat e q) ⟨s, .val s.ty v⟩ (fun r' m hm => ⟨m, hs, he, _, hv, hm⟩) _).and hout).bind
          (fun p S' hp' => ?_) fun x S' ⟨hp, _⟩ =>
            ⟨fun k hk => hp.1 k (.inl hk), fun hne => ⟨fun r' hr' => (hp.2 fun h => hne (by cases h; rfl)).2 r' (hm r' hr'),
              fun _ _ h => h.elim⟩⟩
        obtain ⟨hp, hpt⟩ := hp'
        obtain ⟨v', rfl⟩ : ∃ v' : s.Val, p = ⟨s, .val s.ty v'⟩ := by
          obtain ⟨s', b⟩ := p
          obtain ⟨hst, v', hb⟩ := hpt
          cases hst
          exact ⟨v', congrArg (Pair.mk s) hb⟩
        have hp2 := (hp.2 (by simp)).2
        unfold Joined.remember
        rw [if_pos hc]
        have hcl : (Pair.cloneBuffer ⟨s, .val s.ty v'⟩ : Res (Buf E)) = .ok (.val s.ty v') := by
          rcases Pair.cloneBuffer_eq (p := ⟨s, .val s.ty v'⟩) hs with ⟨w, hw, hb⟩ | ⟨hne, -⟩
          · rw [hb]
            exact congrArg _ hw.symm
          · exact absurd rfl (hne v')
        unfold CProg.cachePair
        rw [hcl]
        refine ⟨.refl, fun k hk => ?_, fun k hk => .inl (hp.1 k (.inl hk)), fun _ => ⟨fun r' hr' k hk =>
          .inl (hp2 r' (hm r' hr') k hk), fun k hk _ => .inr ?_⟩⟩
        · rcases hk.cases with ⟨hk, -⟩ | ⟨r', hr', hk⟩
          · obtain ⟨e', q', s''⟩ := k
            cases hk
            exact .inl rfl
          · exact .inr (hp2 r' (hm r' hr') k hk)
        · obtain ⟨e', q', s''⟩ := k
          cases hk
          rfl
    | relation a b q s =>
      suffices h : Sees (ValidGet A J) (With A J) (fun k => J.Needs A (.stat k.entity k.query k.stat) (.relation a b q s))
          (Got A J (.relation a b q s) S Found) S (J.handle A (n + 1) (.relation a b q s)) from
        h.mono (fun _ h => h) fun y S' hy => ⟨hy.1, fun hne => ⟨(hy.2 hne).1, fun k hk => by cases hk⟩⟩
      refine Sees.validated (fun r' ⟨m, hm⟩ => hm.1) fun hs => Got.read ?_
      rw [J.queryRelationErased_eq]
      split
      swap
      · rename_i he
        exact ⟨fun _ h => h, fun _ => ⟨fun r' ⟨m, hm⟩ => absurd (by simp [hm.2.1, hm.2.2.1]) he, fun _ _ h => h.elim⟩⟩
      rename_i he
      obtain ⟨v, hv⟩ := hJ.startValue s hs
      rw [hv, CProg.lift_ok, CProg.bind_ret]
      have hm : ∀ r', J.Nests A r' (.relation a b q s) →
          ∃ m, callsMake (J.answer A m) r' (J.relationCalls a b q) ⟨s, .val s.ty v⟩ := by
        rintro r' ⟨m, _, _, _, v', hv', hm⟩
        rw [hv] at hv'
        cases hv'
        exact ⟨m, hm⟩
      simp only [Bool.and_eq_true] at he
      refine (Sees.calls hh (hn.relation a b q) ⟨s, .val s.ty v⟩ (fun r' m hm => ⟨m, hs, he.1, he.2, _, hv, hm⟩) S).bind
        (fun p S' hp => ?_) fun x S' hp =>
          ⟨hp.1, fun hne => ⟨fun r' hr' => (hp.2 fun h => hne (by cases h; rfl)).2 r' (hm r' hr'), fun _ _ h => h.elim⟩⟩
      exact ⟨hp.1, fun _ => ⟨fun r' hr' => (hp.2 (by simp)).2 r' (hm r' hr'), fun k hk => by cases hk⟩⟩
    | attr e a =>
      change Sees _ _ _ _ _ (J.hasAttributeErased (J.handle A n) e a)
      rw [J.hasAttributeErased_eq]
      exact (Sees.any hh (hn.attr e a) (fun r' m hm => ⟨m, hm⟩) S).mono (fun _ h => h) fun y S' hy =>
        ⟨hy.1, fun hne => ⟨fun r' hr' => (hy.2 hne).2 r' hr', fun k hk => by cases hk⟩⟩

end queries

/-! ### threads -/

section threads
variable [DecidableEq Q] [DecidableEq Ent] (hJ : J.Safe A) (hn : J.NoStore)
include hJ hn

/-- during a stretch that starts with an empty cache and no queries -/
theorem Stretch.leaves (hc : J.world.cached = true) {s : Conf E Q Ent} {l} (h : Stretch A J ⟨[], []⟩ l s) :
    (∀ j, HMap.get (CacheKey.eq A) s.cache j ≠ none → ∀ k, With A J j k → HMap.get (CacheKey.eq A) s.cache k ≠ none) ∧
    (∀ j, HMap.get (CacheKey.eq A) s.cache j ≠ none →
      ∃ t ∈ s.threads, J.Needs A (.stat j.entity j.query j.stat) t.req) ∧
    ∀ t ∈ s.threads, ∃ S : CacheKey E Q Ent → Prop, (∀ k, S k → HMap.get (CacheKey.eq A) s.cache k ≠ none) ∧
      Sees (ValidGet A J) (With A J) (fun k => J.Needs A (.stat k.entity k.query k.stat) t.req)
        (Leaves A J (fun m => J.answer A m t.req) (· = t.req) fun _ => False) S t.code := by
  generalize ha : (⟨[], []⟩ : Conf E Q Ent) = a at h
  induction h with
  | refl => subst ha; exact ⟨fun j hj => absurd rfl hj, fun j hj => absurd rfl hj, fun t ht => by cases ht⟩
  | @move l b o c hst hm ih =>
    subst ha
    obtain ⟨h1, h2, h3⟩ := ih
    have hv := ((hst.reachable .init).invariant (hJ.honest hn).right).1
    have hset : ∀ (ts : List (Thread E Q Ent)) (i n r x) (y : CProg E Q Ent r.Resp), ts[i]? = some ⟨n, r, x⟩ →
        ∀ r', (∃ t ∈ ts, J.Needs A r' t.req) → ∃ t ∈ ts.set i ⟨n, r, y⟩, J.Needs A r' t.req := by
      rintro ts i n r x y hi r' ⟨t, ht, hr'⟩
      obtain ⟨j, hj⟩ := List.getElem?_of_mem ht
      by_cases hij : i = j
      · subst hij
        rw [hi] at hj
        cases hj
        exact ⟨⟨n, r, y⟩, List.mem_of_getElem? (i := i) (by rw [List.getElem?_set_self', hi]; rfl), hr'⟩
      · exact ⟨t, List.mem_of_getElem? (i := j) (by rw [List.getElem?_set_ne hij]; exact hj), hr'⟩
    cases hm with
    | start c ts n r =>
      refine ⟨h1, fun j hj => ?_, fun t ht => ?_⟩
      · obtain ⟨t, ht, h⟩ := h2 j hj
        exact ⟨t, List.mem_append_left _ ht, h⟩
      · rcases List.mem_append.1 ht with ht | ht
        · exact h3 t ht
        · cases List.mem_singleton.1 ht
          exact ⟨fun _ => False, fun _ h => h.elim, handle_sees hJ hn hc n r _⟩
    | get c ts i n r j f h =>
      refine ⟨h1, fun j hj => hset ts i n r _ _ h _ (h2 j hj), fun t ht => ?_⟩
      rcases List.mem_or_eq_of_mem_set ht with ht | rfl
      · exact h3 t ht
      · obtain ⟨S, hS, hs⟩ := h3 _ (List.mem_of_getElem? h)
        refine ⟨_, ?_, hs _ (hv.get j)⟩
        rintro k (hk | ⟨hne, hk⟩)
        · exact hS k hk
        · exact h1 j hne k hk
    | put c ts i n r j b f h =>
      obtain ⟨S, hS, hL, hs, hs'⟩ := h3 _ (List.mem_of_getElem? h)
      have hget : ∀ k, HMap.get (CacheKey.eq A) (HMap.insert (CacheKey.eq A) c j b).1 k ≠ none ↔
          k = j ∨ HMap.get (CacheKey.eq A) c k ≠ none := by
        intro k
        rw [HMap.get_insert (CacheKey.eq_iff A)]
        by_cases hk : j = k
        · simp [hk]
        · simp [hk, Ne.symm hk]
      refine ⟨fun j' hj' k hk => (hget k).2 ?_, fun j' hj' => ?_, fun t ht => ?_⟩
      · rcases (hget j').1 hj' with rfl | hj'
        · rcases hs k hk with rfl | hk
          · exact .inl rfl
          · exact .inr (hS k hk)
        · exact .inr (h1 j' hj' k hk)
      · rcases (hget j').1 hj' with rfl | hj'
        · exact hset ts i n r _ _ h _ ⟨_, List.mem_of_getElem? h, hL⟩
        · exact hset ts i n r _ _ h _ (h2 j' hj')
      · rcases List.mem_or_eq_of_mem_set ht with ht | rfl
        · obtain ⟨S, hS, hs⟩ := h3 t ht
          exact ⟨S, fun k hk => (hget k).2 (.inr (hS k hk)), hs⟩
        · refine ⟨_, ?_, hs'⟩
          rintro k (hk | rfl)
          · exact (hget k).2 (.inr (hS k hk))
          · exact (hget k).2 (.inl rfl)

/-- C116: everything in the cache is the result of a request that some query involves -/
theorem C116_nothing_else (hc : J.world.cached = true) {s : Conf E Q Ent} {l} (h : Stretch A J ⟨[], []⟩ l s)
    (k : CacheKey E Q Ent) (b : Buf E) (hb : HMap.get (CacheKey.eq A) s.cache k = some b) :
    ∃ t ∈ s.threads, J.Needs A (.stat k.entity k.query k.stat) t.req ∧
      ∃ m v, J.answer A m (.stat k.entity k.query k.stat) = .ok (some v) ∧ b = .val k.stat.ty v := by
  obtain ⟨t, ht, h1⟩ := (Stretch.leaves hJ hn hc h).2.1 k (by rw [hb]; simp)
  obtain ⟨v, hv, -, m, hm⟩ := ((h.reachable .init).invariant (hJ.honest hn).right).1.get k b hb
  exact ⟨t, ht, h1, m, v, hm, hv⟩

/-- C116: the results of all requests that a query involves are in the cache when it has returned, or panicked,
whichever query stored them and whatever the others do meanwhile -/
theorem C116_all (hc : J.world.cached = true) {s : Conf E Q Ent} {l} (h : Stretch A J ⟨[], []⟩ l s)
    (t : Thread E Q Ent) (ht : t ∈ s.threads) (hd : t.Done) (k : CacheKey E Q Ent)
    (hk : J.Needs A (.stat k.entity k.query k.stat) t.req) (m : Nat) (v : k.stat.Val)
    (hv : J.answer A m (.stat k.entity k.query k.stat) = .ok (some v)) :
    HMap.get (CacheKey.eq A) s.cache k = some (.val k.stat.ty v) := by
  obtain ⟨S, hS, hs⟩ := (Stretch.leaves hJ hn hc h).2.2 t ht
  have hSk : S k := by
    rcases hd with ⟨x, hx⟩ | ⟨e, he, hx⟩ <;> rw [hx] at hs
    · exact (hs.2 (by simp)).2 _ rfl _ ⟨hk, m, v, hv⟩
    · exact (hs.2 (by simpa using he)).2 _ rfl _ ⟨hk, m, v, hv⟩
  obtain ⟨b, hb⟩ := Option.ne_none_iff_exists'.1 (hS k hSk)
  obtain ⟨w, hw, -, m', hm'⟩ := ((h.reachable .init).invariant (hJ.honest hn).right).1.get k b hb
  have := (answer_mono (A := A) (J := J) (.stat k.entity k.query k.stat)).agree (m := m) (by simp only [hv]; simp)
    (by simp) hm'
  simp only [hv] at this
  cases this
  rw [hb, hw]

/-- C116: so, when all queries have returned, the cache holds exactly the results of what they involve -/
theorem C116_iff (hc : J.world.cached = true) {s : Conf E Q Ent} {l} (h : Stretch A J ⟨[], []⟩ l s)
    (hd : ∀ t ∈ s.threads, t.Done) (k : CacheKey E Q Ent) (b : Buf E) :
    HMap.get (CacheKey.eq A) s.cache k = some b ↔
      ∃ t ∈ s.threads, J.Needs A (.stat k.entity k.query k.stat) t.req ∧
        ∃ m v, J.answer A m (.stat k.entity k.query k.stat) = .ok (some v) ∧ b = .val k.stat.ty v := by
  refine ⟨C116_nothing_else hJ hn hc h k b, ?_⟩
  rintro ⟨t, ht, hk, m, v, hv, rfl⟩
  exact C116_all hJ hn hc h t ht (hd t ht) k hk m v hv

/-- C116: and what it holds then depends on the requests made only, not on their order, how often each was made, the
depths allowed or how the threads were interleaved -/
theorem C116_schedule (hc : J.world.cached = true) {s s' : Conf E Q Ent} {l l'} (h : Stretch A J ⟨[], []⟩ l s) (h' : Stretch A J ⟨[], []⟩ l' s')
    (hd : ∀ t ∈ s.threads, t.Done) (hd' : ∀ t ∈ s'.threads, t.Done)
    (hr : ∀ r, (∃ t ∈ s.threads, t.req = r) ↔ ∃ t ∈ s'.threads, t.req = r) (k : CacheKey E Q Ent) :
    HMap.get (CacheKey.eq A) s.cache k = HMap.get (CacheKey.eq A) s'.cache k := by
  refine Option.ext fun b => ?_
  rw [C116_iff hJ hn hc h hd, C116_iff hJ hn hc h' hd']
  constructor
  · rintro ⟨t, ht, hk, hv⟩
    obtain ⟨t', ht', he⟩ := (hr t.req).1 ⟨t, ht, rfl⟩
    exact ⟨t', ht', he ▸ hk, hv⟩
  · rintro ⟨t, ht, hk, hv⟩
    obtain ⟨t', ht', he⟩ := (hr t.req).2 ⟨t, ht, rfl⟩
    exact ⟨t', ht', he ▸ hk, hv⟩

end threads

section sequential
variable [DecidableEq Q] [DecidableEq Ent]

/-- code that has ended with this outcome -/
private def endsWith : Res α → CProg E Q Ent α
  | .ok a => .ret a
  | .error e => .fail e

/-- running code to its end is a stretch -/
theorem run_stretch {n : Nat} {r : Req E Q Ent} (x : CProg E Q Ent r.Resp) (hx : x.NoClear) (c : Cache E Q Ent)
    (ts : List (Thread E Q Ent)) :
    ∃ l, Stretch A J ⟨c, ts ++ [⟨n, r, x⟩]⟩ l ⟨(x.run A c).2, ts ++ [⟨n, r, endsWith (x.run A c).1⟩]⟩ := by
  have hset : ∀ y y' : CProg E Q Ent r.Resp, (ts ++ [(⟨n, r, y⟩ : Thread E Q Ent)]).set ts.length ⟨n, r, y'⟩ =
      ts ++ [⟨n, r, y'⟩] := by intro y y'; simp
  have hget : ∀ y : CProg E Q Ent r.Resp, (ts ++ [(⟨n, r, y⟩ : Thread E Q Ent)])[ts.length]? = some ⟨n, r, y⟩ := by
    intro y; simp
  induction x generalizing c with
  | ret a => exact ⟨_, .refl _⟩
  | fail e => exact ⟨_, .refl _⟩
  | get k f ih =>
    obtain ⟨l, hl⟩ := ih _ (hx _) c
    have hm := Move.get (A := A) (J := J) c _ ts.length n r k f (hget _)
    rw [hset] at hm
    exact ⟨_, ((Stretch.refl _).move hm).trans hl⟩
  | put k b f ih =>
    obtain ⟨l, hl⟩ := ih hx (HMap.insert (CacheKey.eq A) c k b).1
    have hm := Move.put (A := A) (J := J) c _ ts.length n r k b f (hget _)
    rw [hset] at hm
    exact ⟨_, ((Stretch.refl _).move hm).trans hl⟩
  | clear f ih => exact hx.elim

/-- so is making queries one after another -/
theorem history_stretch (hq : J.Quiet) (qs : List (Nat × Req E Q Ent)) (c : Cache E Q Ent)
    (ts : List (Thread E Q Ent)) :
    ∃ l ts', Stretch A J ⟨c, ts⟩ l ⟨(history A J c (qs.map fun x => .query x.1 x.2)).2, ts ++ ts'⟩ ∧
      (∀ r, (∃ t ∈ ts', t.req = r) ↔ ∃ x ∈ qs, x.2 = r) ∧
      ((∀ o ∈ (history A J c (qs.map fun x => .query x.1 x.2)).1, o.res ≠ .error .fuel) → ∀ t ∈ ts', t.Done) := by
  induction qs generalizing c ts with
  | nil => exact ⟨[], [], by simpa [history] using Stretch.refl _, by simp, fun _ t ht => by cases ht⟩
  | cons x qs ih =>
    obtain ⟨n, r⟩ := x
    obtain ⟨l1, h1⟩ := run_stretch (A := A) (J := J) (n := n) (J.handle A n r) (hq.noClear A n r) c ts
    obtain ⟨l2, ts', h2, h3, h4⟩ := ih ((J.handle A n r).run A c).2
      (ts ++ [⟨n, r, endsWith ((J.handle A n r).run A c).1⟩])
    refine ⟨([] ++ (none : Option (Nat × CacheKey E Q Ent)).toList ++ l1) ++ l2,
      ⟨n, r, endsWith ((J.handle A n r).run A c).1⟩ :: ts', ?_, fun r' => ?_, fun ho t ht => ?_⟩
    · have := (((Stretch.refl _).move (Move.start (A := A) (J := J) c ts n r)).trans h1).trans h2
      rwa [List.append_assoc ts] at this
    · simp only [List.mem_cons, exists_eq_or_imp, h3]
    · rcases List.mem_cons.1 ht with rfl | ht
      · have := ho ⟨J, n, r, ((J.handle A n r).run A c).1⟩ List.mem_cons_self
        simp only at this
        cases hx : ((J.handle A n r).run A c).1 with
        | ok a => exact .inl ⟨a, rfl⟩
        | error e => exact .inr ⟨e, fun h => this (by rw [hx, h]), rfl⟩
      · exact h4 (fun o h => ho o (List.mem_cons_of_mem _ h)) t ht

/-- C116: in particular the same as if the queries were made one after another, in any order -/
theorem C116_sequential (hJ : J.Safe A) (hq : J.Quiet) (hc : J.world.cached = true) {s : Conf E Q Ent} {l}
    (h : Stretch A J ⟨[], []⟩ l s) (hd : ∀ t ∈ s.threads, t.Done) (qs : List (Nat × Req E Q Ent))
    (hqs : ∀ o ∈ (history A J [] (qs.map fun x => .query x.1 x.2)).1, o.res ≠ .error .fuel)
    (hr : ∀ r, (∃ t ∈ s.threads, t.req = r) ↔ ∃ x ∈ qs, x.2 = r) (k : CacheKey E Q Ent) :
    HMap.get (CacheKey.eq A) s.cache k =
      HMap.get (CacheKey.eq A) (history A J [] (qs.map fun x => .query x.1 x.2)).2 k := by
  obtain ⟨l', ts, h1, h2, h3⟩ := history_stretch (A := A) hq qs [] []
  exact C116_schedule hJ hq.noStore hc h h1 hd (h3 hqs) (fun r => (hr r).trans (h2 r).symm) k

end sequential

/-! ### the hypotheses can be met -/

/-- stat 0 is read off stat 1, and that off stat 2 -/
private abbrev demoThree : Joined demo (BitVec 8) Nat := demoReads fun i => if i < 2 then some (i + 1) else none

/-- two queries, for stats 0 and 1: both look up their own stat; the second looks stat 2 up, stores it and its own, and
returns; the first finds stat 1 and returns -/
example : ∃ l s, Stretch demoAddr demoThree ⟨[], []⟩ l s ∧ (∀ t ∈ s.threads, t.Done) ∧
    s.threads.map (·.req) = [.stat 0 demoQ (demoInt 0), .stat 0 demoQ (demoInt 1)] ∧
    demoThree.world.cached = true ∧
    l = [(1, ⟨0, demoQ, demoInt 2⟩), (1, ⟨0, demoQ, demoInt 1⟩), (0, ⟨0, demoQ, demoInt 0⟩)] := by
  have h := Stretch.refl (A := demoAddr) (J := demoThree) ⟨[], []⟩
  have h := h.move (Move.start [] [] 3 (.stat 0 demoQ (demoInt 0)))
  have h := h.move (Move.start [] _ 2 (.stat 0 demoQ (demoInt 1)))
  have h := h.move (Move.get _ _ 0 3 _ _ _ rfl)
  have h := h.move (Move.get _ _ 1 2 _ _ _ rfl)
  have h := h.move (Move.get _ _ 1 2 _ _ _ rfl)
  have h := h.move (Move.put _ _ 1 2 _ _ _ _ rfl)
  have h := h.move (Move.put _ _ 1 2 _ _ _ _ rfl)
  have h := h.move (Move.get _ _ 0 3 _ _ _ rfl)
  have h := h.move (Move.put _ _ 0 3 _ _ _ _ rfl)
  refine ⟨_, _, h, ?_, rfl, rfl, rfl⟩
  intro t ht
  have ht : t ∈ [_, _] := ht
  rcases List.mem_cons.1 ht with rfl | ht
  · exact .inl ⟨_, rfl⟩
  · cases List.mem_singleton.1 ht
    exact .inl ⟨_, rfl⟩

/-- a single query leaves all three, the innermost stored first -/
example : ((history demoAddr demoThree [] [.query 3 (.stat 0 demoQ (demoInt 0))]).2.map fun x => x.1.stat.index) =
    [2, 1, 0] := rfl

/-- a query that exhausts its depth need not: what it involves is not all stored -/
example : (history demoAddr demoThree [] [.query 2 (.stat 0 demoQ (demoInt 0))]).2.length = 0 := rfl

end BSQ
