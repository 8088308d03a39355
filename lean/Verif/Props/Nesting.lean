import Verif.Props.Recursion
import Verif.Spec.Nesting
import Verif.Spec.DemoQuerier
import Mathlib.Order.WellFounded
import Mathlib.Order.RelIso.Basic
import Mathlib.Order.OrderIsoNat
import Mathlib.Data.Finset.Card
/-!
# C113: a query returns exactly if the queries it makes do not nest without end
-/
namespace BSQ
variable {E : Env} {Q Ent α : Type} {A : Addr E} {J : Joined E Q Ent}

/-! ### lemmas on the questions code puts -/

/-- `o` and `o'` agree where both have an outcome -/
private def Agree (o o' : Oracle E Q Ent) : Prop :=
  ∀ r, o r ≠ .error .fuel → o' r ≠ .error .fuel → o r = o' r

private theorem answers_agree (n m : Nat) : Agree (J.answer A n) (J.answer A m) := by
  intro r h h'
  rcases Nat.le_total n m with hl | hl
  · exact (J.answer_le A hl r h).symm
  · exact J.answer_le A hl r h'

private theorem Agree.attempt {o o' : Oracle E Q Ent} (ha : Agree o o') {r : Req E Q Ent} {x : Option r.Resp}
    (h : o r ≠ .error .fuel) (hx : (o' r).attempt = .ok x) : (o r).attempt = .ok x := by
  rw [ha r h (fun hf => by rw [hf] at hx; cases hx), hx]

private theorem Agree.ok {o o' : Oracle E Q Ent} (ha : Agree o o') {r : Req E Q Ent} {x : r.Resp}
    (h : o r ≠ .error .fuel) (hx : o' r = .ok x) : o r = .ok x := by
  rw [ha r h (by rw [hx]; simp), hx]

private theorem Res.ne_fuel_of_bind {β : Type} {x : Res α} {f : α → Res β} (h : (x >>= f) ≠ .error .fuel) :
    x ≠ .error .fuel := by
  rintro rfl; exact h rfl

/-- code that has an outcome got an outcome from each question it put -/
private theorem Prog.Makes.settled {o o' : Oracle E Q Ent} (ha : Agree o o') {r' : Req E Q Ent} :
    (p : Prog E Q Ent α) → p.eval o ≠ .error .fuel → p.Makes o' r' → o r' ≠ .error .fuel
  | .ret _, _, h => h.elim
  | .fail _, _, h => h.elim
  | .ask r k, he, h => by
    have hr := Res.ne_fuel_of_bind he
    rcases h with rfl | ⟨x, hx, h⟩
    · exact hr
    · refine Prog.Makes.settled ha (k x) ?_ h
      simp only [Prog.eval, ha.ok hr hx, Res.bind_ok] at he
      exact he
  | .attempt r k, he, h => by
    have hr : o r ≠ .error .fuel := fun hf => Res.ne_fuel_of_bind he (by rw [hf]; rfl)
    rcases h with rfl | ⟨x, hx, h⟩
    · exact hr
    · refine Prog.Makes.settled ha (k x) ?_ h
      simp only [Prog.eval, ha.attempt hr hx, Res.bind_ok] at he
      exact he
  | .clear k, he, h => Prog.Makes.settled ha k he h
  | .store _ _ p k, he, ⟨⟨b, hb⟩, h⟩ => by
    refine Prog.Makes.settled ha k ?_ h
    simp only [Prog.eval, hb, Res.bind_ok] at he
    exact he

/-- code all of whose questions have an outcome has one -/
private theorem Prog.settled_of_makes {o : Oracle E Q Ent} :
    (p : Prog E Q Ent α) → p.All (· ≠ .error .fuel) → (∀ r', p.Makes o r' → o r' ≠ .error .fuel) →
      p.eval o ≠ .error .fuel
  | .ret _, _, _ => by simp [Prog.eval]
  | .fail _, h, _ => h
  | .ask r k, hA, h => by
    have hr := h r (.inl rfl)
    simp only [Prog.eval]
    cases hx : o r with
    | ok x => exact Prog.settled_of_makes (k x) (hA x) fun r' h' => h r' (.inr ⟨x, hx, h'⟩)
    | error e => rw [hx] at hr; exact fun hf => hr (by cases hf; rfl)
  | .attempt r k, hA, h => by
    have hr := h r (.inl rfl)
    simp only [Prog.eval]
    cases hx : (o r).attempt with
    | ok x => exact Prog.settled_of_makes (k x) (hA x) fun r' h' => h r' (.inr ⟨x, hx, h'⟩)
    | error e =>
      intro hf
      cases hf
      exact hr (Res.attempt_fuel.1 hx)
  | .clear k, hA, h => Prog.settled_of_makes k hA h
  | .store _ _ p k, hA, h => by
    simp only [Prog.eval]
    simp only [Prog.All] at hA
    cases hb : p.cloneBuffer with
    | ok b =>
      rw [hb] at hA
      exact Prog.settled_of_makes k hA fun r' h' => h r' ⟨⟨b, hb⟩, h'⟩
    | error e => rw [hb] at hA; exact hA

private theorem callsMake.settled {o o' : Oracle E Q Ent} (ha : Agree o o')
    (hle : ∀ {β : Type} (p : Prog E Q Ent β) a, p.eval o ≠ .error .fuel → p.eval o' = .ok a → p.eval o = .ok a)
    {r' : Req E Q Ent} : (l : List (Call E Q Ent)) → (p : Pair E) → runCalls o l p ≠ .error .fuel →
      callsMake o' r' l p → o r' ≠ .error .fuel
  | [], _, _, h => h.elim
  | c :: cs, p, he, h => by
    have hc := Res.ne_fuel_of_bind he
    rcases h with h | ⟨p', hp', h⟩
    · exact Prog.Makes.settled ha _ hc h
    · refine callsMake.settled ha hle cs p' ?_ h
      simp only [runCalls, hle _ _ hc hp', Res.bind_ok] at he
      exact he

private theorem callsMake.settled_of {o : Oracle E Q Ent} :
    (l : List (Call E Q Ent)) → (p : Pair E) → (∀ c ∈ l, ∀ p, (c p).All (· ≠ .error .fuel)) →
      (∀ r', callsMake o r' l p → o r' ≠ .error .fuel) → runCalls o l p ≠ .error .fuel
  | [], _, _, _ => by simp [runCalls]
  | c :: cs, p, hA, h => by
    have hc := Prog.settled_of_makes (c p) (hA c List.mem_cons_self p) fun r' h' => h r' (.inl h')
    simp only [runCalls]
    cases hx : (c p).eval o with
    | ok p' =>
      exact callsMake.settled_of cs p' (fun c' hc' => hA c' (List.mem_cons_of_mem _ hc'))
        fun r' h' => h r' (.inr ⟨p', hx, h'⟩)
    | error e => rw [hx] at hc; exact fun hf => hc (by cases hf; rfl)

private theorem anyMake.settled {o o' : Oracle E Q Ent} (ha : Agree o o')
    (hle : ∀ {β : Type} (p : Prog E Q Ent β) a, p.eval o ≠ .error .fuel → p.eval o' = .ok a → p.eval o = .ok a)
    {r' : Req E Q Ent} : (l : List (Prog E Q Ent Bool)) → anyCalls o l ≠ .error .fuel →
      anyMake o' r' l → o r' ≠ .error .fuel
  | [], _, h => h.elim
  | c :: cs, he, h => by
    have hc := Res.ne_fuel_of_bind he
    rcases h with h | ⟨hp', h⟩
    · exact Prog.Makes.settled ha _ hc h
    · refine anyMake.settled ha hle cs ?_ h
      simp only [anyCalls, hle _ _ hc hp', Res.bind_ok, Bool.false_eq_true, if_false] at he
      exact he

private theorem anyMake.settled_of {o : Oracle E Q Ent} :
    (l : List (Prog E Q Ent Bool)) → (∀ c ∈ l, c.All (· ≠ .error .fuel)) →
      (∀ r', anyMake o r' l → o r' ≠ .error .fuel) → anyCalls o l ≠ .error .fuel
  | [], _, _ => by simp [anyCalls]
  | c :: cs, hA, h => by
    have hc := Prog.settled_of_makes c (hA c List.mem_cons_self) fun r' h' => h r' (.inl h')
    simp only [anyCalls]
    cases hx : c.eval o with
    | ok b =>
      cases b
      · exact anyMake.settled_of cs (fun c' hc' => hA c' (List.mem_cons_of_mem _ hc'))
          fun r' h' => h r' (.inr ⟨hx, h'⟩)
      · simp
    | error e => rw [hx] at hc; exact fun hf => hc (by cases hf; rfl)

private theorem eval_agree (n m : Nat) {β : Type} (p : Prog E Q Ent β) (a : β)
    (h : p.eval (J.answer A n) ≠ .error .fuel) (hm : p.eval (J.answer A m) = .ok a) :
    p.eval (J.answer A n) = .ok a := by
  rcases Nat.le_total n m with hl | hl
  · rw [← hm]; exact (Prog.eval_le (fun r => J.answer_le A hl r) p h).symm
  · rw [← hm]; exact Prog.eval_le (fun r => J.answer_le A hl r) p (by rw [hm]; simp)

private theorem Res.bind_ne_fuel {β : Type} {x : Res α} {f : α → Res β} (hx : x ≠ .error .fuel)
    (hf : ∀ a, x = .ok a → f a ≠ .error .fuel) : (x >>= f) ≠ .error .fuel := by
  cases x with
  | ok a => exact hf a rfl
  | error e => exact fun h => hx (by cases h; rfl)

private theorem read_some_ne_fuel (s : StatInst E) (p : Pair E) :
    (p.value.read s.ty >>= fun x => (.ok (some x) : Res (Option s.Val))) ≠ .error .fuel :=
  Res.bind_ne_fuel (Buf.read_ne_fuel _ _) fun _ _ => by simp

/-- a request that has an outcome got one from each question it involves, at one level less -/
private theorem nests_settled {n : Nat} {r r' : Req E Q Ent} (h : J.answer A (n + 1) r ≠ .error .fuel)
    (hn : J.Nests A r' r) : J.answer A n r' ≠ .error .fuel := by
  obtain ⟨m, hm⟩ := hn
  rw [J.answer_succ] at h
  cases r with
  | stat e q s =>
    obtain ⟨hs, he, v, hv, hm⟩ := hm
    refine callsMake.settled (answers_agree n m) (eval_agree n m) _ _ ?_ hm
    change (validate (E.layout s.ty) >>= fun _ => _) ≠ _ at h
    rw [validate_eq, if_pos hs, Res.bind_ok] at h
    simp only [he, if_true, hv, Res.bind_ok] at h
    exact Res.ne_fuel_of_bind h
  | relation a b q s =>
    obtain ⟨hs, he, he', v, hv, hm⟩ := hm
    refine callsMake.settled (answers_agree n m) (eval_agree n m) _ _ ?_ hm
    change (validate (E.layout s.ty) >>= fun _ => _) ≠ _ at h
    rw [validate_eq, if_pos hs, Res.bind_ok] at h
    simp only [he, he', Bool.and_self, if_true, hv, Res.bind_ok] at h
    exact Res.ne_fuel_of_bind h
  | attr e a => exact anyMake.settled (answers_agree n m) (eval_agree n m) _ h hm

/-- C113: the depth a request needs is exactly one more than that of the requests it involves -/
theorem C113_depth_step (hJ : J.Ends) (n : Nat) (r : Req E Q Ent) :
    J.answer A (n + 1) r ≠ .error .fuel ↔ ∀ r', J.Nests A r' r → J.answer A n r' ≠ .error .fuel := by
  refine ⟨fun h r' hn => nests_settled h hn, fun h => ?_⟩
  have h' : ∀ r', J.Makes A (J.answer A n) r' r → J.answer A n r' ≠ .error .fuel := fun r' hm => h r' ⟨n, hm⟩
  rw [J.answer_succ]
  cases r with
  | stat e q s =>
    change (validate (E.layout s.ty) >>= fun _ => _) ≠ _
    refine Res.bind_ne_fuel (validate_ne_fuel _) fun _ hu => ?_
    have hs : Storable (E.layout s.ty) := by
      rw [validate_eq] at hu
      by_contra hs
      simp [hs] at hu
    cases he : J.world.isStat e with
    | false => simp
    | true =>
      simp only [if_true]
      refine Res.bind_ne_fuel (startValue_ne_fuel _ _) fun v hv => ?_
      exact Res.bind_ne_fuel (callsMake.settled_of _ _ (hJ.stat e q) fun r' hm => h' r' ⟨hs, he, v, hv, hm⟩)
        fun p _ => read_some_ne_fuel s p
  | relation a b q s =>
    change (validate (E.layout s.ty) >>= fun _ => _) ≠ _
    refine Res.bind_ne_fuel (validate_ne_fuel _) fun _ hu => ?_
    have hs : Storable (E.layout s.ty) := by
      rw [validate_eq] at hu
      by_contra hs
      simp [hs] at hu
    cases he : J.world.isStat a with
    | false => simp
    | true =>
      cases he' : J.world.isStat b with
      | false => simp
      | true =>
        simp only [Bool.and_self, if_true]
        refine Res.bind_ne_fuel (startValue_ne_fuel _ _) fun v hv => ?_
        exact Res.bind_ne_fuel (callsMake.settled_of _ _ (hJ.relation a b q) fun r' hm => h' r' ⟨hs, he, he', v, hv, hm⟩)
          fun p _ => read_some_ne_fuel s p
  | attr e a => exact anyMake.settled_of _ (hJ.attr e a) h'

/-! ### only finitely many questions are put by one request -/

private theorem Prog.Makes.finite (p : Prog E Q Ent α) :
    Set.Finite {r' | ∃ n, p.Makes (J.answer A n) r'} := by
  induction p with
  | ret a => simp [Prog.Makes]
  | fail e => simp [Prog.Makes]
  | ask r k ih =>
    by_cases hr : ∃ n x, J.answer A n r = .ok x
    · obtain ⟨n, x, hx⟩ := hr
      refine ((Set.finite_singleton r).union (ih x)).subset ?_
      rintro r' ⟨m, rfl | ⟨y, hy, h⟩⟩
      · exact .inl rfl
      · have : y = x := by
          have := answers_agree (A := A) (J := J) n m r (by rw [hx]; simp) (by rw [hy]; simp)
          rw [hx, hy] at this
          cases this
          rfl
        exact .inr ⟨m, this ▸ h⟩
    · refine (Set.finite_singleton r).subset ?_
      rintro r' ⟨m, rfl | ⟨y, hy, h⟩⟩
      · rfl
      · exact absurd ⟨m, y, hy⟩ hr
  | attempt r k ih =>
    by_cases hr : ∃ n x, (J.answer A n r).attempt = .ok x
    · obtain ⟨n, x, hx⟩ := hr
      refine ((Set.finite_singleton r).union (ih x)).subset ?_
      rintro r' ⟨m, rfl | ⟨y, hy, h⟩⟩
      · exact .inl rfl
      · have : y = x := by
          have := answers_agree (A := A) (J := J) n m r (fun hf => by rw [hf] at hx; cases hx)
            (fun hf => by rw [hf] at hy; cases hy)
          rw [this, hy] at hx
          cases hx
          rfl
        exact .inr ⟨m, this ▸ h⟩
    · refine (Set.finite_singleton r).subset ?_
      rintro r' ⟨m, rfl | ⟨y, hy, h⟩⟩
      · rfl
      · exact absurd ⟨m, y, hy⟩ hr
  | clear k ih => exact ih
  | store e q p k ih => exact ih.subset fun r' ⟨m, _, h⟩ => ⟨m, h⟩

private theorem callsMake.finite (l : List (Call E Q Ent)) (p : Pair E) :
    Set.Finite {r' | ∃ n, callsMake (J.answer A n) r' l p} := by
  induction l generalizing p with
  | nil => simp [callsMake]
  | cons c l ih =>
    by_cases hr : ∃ n p', (c p).eval (J.answer A n) = .ok p'
    · obtain ⟨n, p', hx⟩ := hr
      refine ((Prog.Makes.finite (A := A) (J := J) (c p)).union (ih p')).subset ?_
      rintro r' ⟨m, h | ⟨y, hy, h⟩⟩
      · exact .inl ⟨m, h⟩
      · have : y = p' := by
          have := eval_agree n m (c p) y (by rw [hx]; simp) hy
          rw [hx] at this
          cases this
          rfl
        exact .inr ⟨m, this ▸ h⟩
    · refine (Prog.Makes.finite (A := A) (J := J) (c p)).subset ?_
      rintro r' ⟨m, h | ⟨y, hy, h⟩⟩
      · exact ⟨m, h⟩
      · exact absurd ⟨m, y, hy⟩ hr

private theorem anyMake.finite (l : List (Prog E Q Ent Bool)) :
    Set.Finite {r' | ∃ n, anyMake (J.answer A n) r' l} := by
  induction l with
  | nil => simp [anyMake]
  | cons c l ih =>
    refine ((Prog.Makes.finite (A := A) (J := J) c).union ih).subset ?_
    rintro r' ⟨m, h | ⟨_, h⟩⟩
    · exact .inl ⟨m, h⟩
    · exact .inr ⟨m, h⟩

/-- C113: a request involves only finitely many others -/
theorem C113_finite (r : Req E Q Ent) : Set.Finite {r' | J.Nests A r' r} := by
  cases r with
  | stat e q s =>
    cases hv : J.world.startValue A s with
    | ok v =>
      refine (callsMake.finite (A := A) (J := J) (J.statCalls e q) ⟨s, v⟩).subset ?_
      rintro r' ⟨n, _, _, v', hv', h⟩
      rw [hv] at hv'
      cases hv'
      exact ⟨n, h⟩
    | error x =>
      refine Set.finite_empty.subset ?_
      rintro r' ⟨n, _, _, v', hv', h⟩
      rw [hv] at hv'
      cases hv'
  | relation a b q s =>
    cases hv : J.world.startValue A s with
    | ok v =>
      refine (callsMake.finite (A := A) (J := J) (J.relationCalls a b q) ⟨s, v⟩).subset ?_
      rintro r' ⟨n, _, _, _, v', hv', h⟩
      rw [hv] at hv'
      cases hv'
      exact ⟨n, h⟩
    | error x =>
      refine Set.finite_empty.subset ?_
      rintro r' ⟨n, _, _, _, v', hv', h⟩
      rw [hv] at hv'
      cases hv'
  | attr e a => exact anyMake.finite _

/-! ### the theorems -/

/-- C113: a request has an outcome (at some depth, so without exhausting the stack if that is large enough)
exactly if the requests made for it do not nest without end -/
theorem C113_iff (hJ : J.Ends) (r : Req E Q Ent) :
    (∃ n, J.answer A n r ≠ .error .fuel) ↔ Acc (J.Nests A) r := by
  constructor
  · rintro ⟨n, hn⟩
    induction n generalizing r with
    | zero => exact absurd (J.answer_zero A r) hn
    | succ n ih => exact ⟨r, fun r' h => ih r' (nests_settled hn h)⟩
  · intro h
    induction h with
    | intro r _ ih =>
      choose! d hd using ih
      obtain ⟨N, hN⟩ := ((C113_finite (A := A) (J := J) r).image d).bddAbove
      refine ⟨N + 1, (C113_depth_step hJ N r).2 fun r' h => ?_⟩
      rw [J.answer_le A (hN ⟨r', h, rfl⟩) r' (hd r' h)]
      exact hd r' h

/-- C113: so it runs forever exactly if there is an endless chain of requests, each made for the one before -/
theorem C113_endless_chain (hJ : J.Ends) (r : Req E Q Ent) :
    (∀ n, J.answer A n r = .error .fuel) ↔
      ∃ f : Nat → Req E Q Ent, f 0 = r ∧ ∀ i, J.Nests A (f (i + 1)) (f i) := by
  rw [← not_iff_not, not_forall, C113_iff hJ r, not_exists]
  rw [acc_iff_isEmpty_descending_chain, isEmpty_subtype]

/-- C113: and it does if what it involves comes back to itself, whatever the length of the circle -/
theorem C113_circle (r r' : Req E Q Ent) (h : Relation.ReflTransGen (fun a b => J.Nests A b a) r r')
    (hr' : Relation.TransGen (fun a b => J.Nests A b a) r' r') (n : Nat) : J.answer A n r = .error .fuel := by
  by_contra hn
  have hacc : ∀ n r, J.answer A n r ≠ .error .fuel → Acc (J.Nests A) r := by
    intro n
    induction n with
    | zero => exact fun r h => absurd (J.answer_zero A r) h
    | succ n ih => exact fun r hn => ⟨r, fun r' h => ih r' (nests_settled hn h)⟩
  have h1 : Acc (J.Nests A) r' := by
    have h0 := hacc n r hn
    clear hn hr'
    induction h with
    | refl => exact h0
    | tail _ h ih => exact ih.inv h
  have h3 : Relation.TransGen (J.Nests A) r' r' := Relation.transGen_swap.1 hr'
  have : ∀ x, Acc (Relation.TransGen (J.Nests A)) x → ¬ Relation.TransGen (J.Nests A) x x := by
    intro x hx
    induction hx with
    | intro x _ ih => exact fun h => ih x h h
  exact this r' h1.transGen h3

/-- C113: a request that has an outcome at all needs no more depth than the number of different requests that
are made in its course, itself included -/
theorem C113_depth_bound (hJ : J.Ends) (r : Req E Q Ent) (S : Finset (Req E Q Ent))
    (hS : ∀ r', Relation.ReflTransGen (fun a b => J.Nests A b a) r r' → r' ∈ S)
    (hr : ∃ n, J.answer A n r ≠ .error .fuel) : J.answer A S.card r ≠ .error .fuel := by
  classical
  obtain ⟨m, hm⟩ := hr
  generalize hc : S.card = c
  induction c generalizing r S m with
  | zero =>
    have := hS r .refl
    rw [Finset.card_eq_zero.1 hc] at this
    simp at this
  | succ c ih =>
    refine (C113_depth_step hJ c r).2 fun r' h => ?_
    obtain ⟨m, rfl⟩ : ∃ k, m = k + 1 := by
      cases m with
      | zero => exact absurd (J.answer_zero A r) hm
      | succ k => exact ⟨k, rfl⟩
    refine ih r' (S.erase r) (fun r'' h' => Finset.mem_erase.2 ⟨?_, hS r'' (.head h h')⟩) m (nests_settled hm h)
      (by rw [Finset.card_erase_of_mem (hS r .refl), hc]; rfl)
    rintro rfl
    exact hm (C113_circle r'' r'' .refl (.head' h h') _)

section cached
variable [DecidableEq Q] [DecidableEq Ent]

/-- C113: with a cache as well, after any history of queries and clears: a query has an outcome at some depth
exactly if the requests made for it, without a cache, do not nest without end -/
theorem C113_cached (hJ : J.Ends) (hs : J.Right A) (evs : List (Event E Q Ent))
    (hq : ∀ ev ∈ evs, ev.isQuery = true ∨ ev = .clear) (r : Req E Q Ent) :
    (∃ n, ((J.handle A n r).run A (history A J [] evs).2).1 ≠ .error .fuel) ↔ Acc (J.Nests A) r := by
  rw [← C113_iff hJ r]
  have := fun n => C51_agreeing_partial (A := A) J J hs hs (fun e q s v n h => ⟨n, h⟩) evs hq n r
  constructor
  · rintro ⟨n, hn⟩
    obtain ⟨m, hm⟩ := (this n).2 hn
    exact ⟨m, by rw [hm]; exact hn⟩
  · rintro ⟨n, hn⟩
    exact ⟨n, by rw [(this n).1 hn]; exact hn⟩

end cached

/-! ### the hypotheses can be met -/

/-- integer stat `i` is read off integer stat `f i`, if any, by a global relation -/
def demoReads (f : Nat → Option Nat) : Joined demo (BitVec 8) Nat :=
  { world := { demoWorld with relations := some [fun e q p =>
      match f p.stat.index with
      | some j => .ask (.stat e q (demoInt j)) fun _ => .ret p
      | none => .ret p] }
    comp := .unit, rel := .unit, child := .unit }

theorem demoReads_ends (f : Nat → Option Nat) : (demoReads f).Ends where
  stat e q c hc p := by
    have hc : c ∈ [_] := hc
    cases List.mem_singleton.1 hc
    simp only
    split <;> simp [Prog.All]
  relation a b q c hc p := by
    have hc : c ∈ [_] := hc
    cases List.mem_singleton.1 hc
    simp only
    split <;> simp [Prog.All]
  attr e a c hc := by
    have hc : c ∈ (if _ then [] else []) := hc
    simp at hc

theorem demoReads_right (f : Nat → Option Nat) : (demoReads f).Right demoAddr := by
  refine (Joined.Safe.honest ?_ ?_).right
  · refine ⟨fun g hg e q => ?_, fun st hst => ?_, fun st hst => ?_, fun st hst => ?_, fun d hd => ?_⟩
    · have hg : g ∈ [_] := hg
      cases List.mem_singleton.1 hg
      intro p hp
      simp only
      split
      · exact fun _ => ⟨rfl, hp⟩
      · exact ⟨rfl, hp⟩
    · cases hst
    · cases hst
    · cases hst
    · cases hd
  · refine ⟨fun e q c hc p => ?_, fun a b q c hc p => ?_, fun e a c hc => ?_⟩
    · have hc : c ∈ [_] := hc
      cases List.mem_singleton.1 hc
      simp only
      split <;> simp [Prog.NoStore]
    · have hc : c ∈ [_] := hc
      cases List.mem_singleton.1 hc
      simp only
      split <;> simp [Prog.NoStore]
    · have hc : c ∈ (if _ then [] else []) := hc
      simp at hc

theorem demoReads_nests (f : Nat → Option Nat) (i j : Nat) (h : f i = some j) :
    (demoReads f).Nests demoAddr (.stat 0 demoQ (demoInt j)) (.stat 0 demoQ (demoInt i)) := by
  refine ⟨0, (show Storable (demo.layout true) by decide), rfl, _, rfl, .inl ?_⟩
  simp only [h]
  exact .inl rfl

/-- three stats read off each other in a circle: none of the queries ever returns, at no depth -/
example (i n : Nat) (hi : i < 3) :
    (demoReads fun i => some ((i + 1) % 3)).answer demoAddr n (.stat 0 demoQ (demoInt i)) = .error .fuel := by
  have h := fun i => demoReads_nests (fun i => some ((i + 1) % 3)) i _ rfl
  refine C113_circle _ _ .refl ?_ n
  have h3 := (((Relation.TransGen.single (r := fun a b => Joined.Nests demoAddr _ b a) (h i)).tail (h _)).tail (h _))
  have : (((i + 1) % 3 + 1) % 3 + 1) % 3 = i := by omega
  rw [this] at h3
  exact h3

/-- a chain of six stats: the query for the first needs depth six, and no less -/
example :
    ((demoReads fun i => if i < 5 then some (i + 1) else none).answer demoAddr 6 (.stat 0 demoQ (demoInt 0))) ≠
      .error .fuel ∧
    ((demoReads fun i => if i < 5 then some (i + 1) else none).answer demoAddr 5 (.stat 0 demoQ (demoInt 0))) =
      .error .fuel := by
  refine ⟨fun h => ?_, rfl⟩
  have : (demoReads fun i => if i < 5 then some (i + 1) else none).answer demoAddr 6 (.stat 0 demoQ (demoInt 0)) =
      .ok (some ⟨0, -2147483648, 2147483647, 1⟩) := rfl
  rw [this] at h
  cases h

/-- stats read off the next without end: the queries never return though none comes back to itself -/
example (n : Nat) :
    (demoReads fun i => some (i + 1)).answer demoAddr n (.stat 0 demoQ (demoInt 0)) = .error .fuel :=
  (C113_endless_chain (demoReads_ends _) _).2
    ⟨fun i => .stat 0 demoQ (demoInt i), rfl, fun i => demoReads_nests _ i _ rfl⟩ n

/-- with a cache they never return either -/
example (n : Nat) : (((demoReads fun i => some (i + 1)).handle demoAddr n (.stat 0 demoQ (demoInt 0))).run demoAddr
    []).1 = .error .fuel := by
  have h := C113_cached (demoReads_ends fun i => some (i + 1)) (demoReads_right _) [] (by simp)
    (.stat 0 demoQ (demoInt 0))
  by_contra hn
  obtain ⟨m, hm⟩ := (C113_iff (demoReads_ends _) _).2 (h.1 ⟨n, hn⟩)
  exact hm ((C113_endless_chain (demoReads_ends _) _).2
    ⟨fun i => .stat 0 demoQ (demoInt i), rfl, fun i => demoReads_nests _ i _ rfl⟩ m)

end BSQ
