import Verif.Model.InPlace
import Verif.Proofs.RatioReturns
/-! Helper lemmas: following a value through code that may panic. -/
namespace BSQ
namespace Mut
variable {S A α β : Type}

theorem bind_apply (m : Mut S α) (f : α → Mut S β) (s : S) :
    (m >>= f) s = match m s with
      | (.ok a, s') => f a s'
      | (.error e, s') => (.error e, s') := rfl

theorem bind_ok {m : Mut S α} {f : α → Mut S β} {s s' : S} {a : α} (h : m s = (.ok a, s')) :
    (m >>= f) s = f a s' := by rw [bind_apply, h]
theorem bind_error {m : Mut S α} {f : α → Mut S β} {s s' : S} {e : Err} (h : m s = (.error e, s')) :
    (m >>= f) s = (.error e, s') := by rw [bind_apply, h]
@[simp] theorem pure_apply (a : α) (s : S) : (pure a : Mut S α) s = (.ok a, s) := rfl
@[simp] theorem get_apply (s : S) : (get : Mut S S) s = (.ok s, s) := rfl
theorem compute_apply (x : Res α) (s : S) : (compute x : Mut S α) s = (x, s) := rfl
theorem assign_ok (y s : S) : assign (.ok y) s = (.ok (), y) := rfl
theorem assign_error (e : Err) (s : S) : assign (.error e) s = (.error e, s) := rfl
theorem part_apply (g : S → A) (p : S → A → S) (m : Mut A α) (s : S) :
    part g p m s = ((m (g s)).1, p s (m (g s)).2) := rfl

theorem outcome_of_ok {m : Mut S Unit} {s s' : S} (h : m s = (.ok (), s')) : m.outcome s = .ok s' := by
  simp [outcome, h, Except.map]
theorem outcome_of_error {m : Mut S Unit} {s s' : S} {e : Err} (h : m s = (.error e, s')) :
    m.outcome s = .error e := by
  simp [outcome, h, Except.map]

theorem outcome_ok {m : Mut S Unit} {s s' : S} : m.outcome s = .ok s' ↔ m s = (.ok (), s') := by
  rcases h : m s with ⟨⟨⟩ | ⟨⟩, x⟩ <;> simp [outcome, h, Except.map]

theorem outcome_error {m : Mut S Unit} {s : S} {e : Err} : m.outcome s = .error e ↔ (m s).1 = .error e := by
  rcases h : m s with ⟨⟨⟩ | ⟨⟩, x⟩ <;> simp [outcome, h, Except.map]

/-- outcome of one statement after the other -/
theorem outcome_bind (m : Mut S Unit) (f : Unit → Mut S Unit) (s : S) :
    (m >>= f).outcome s = (m.outcome s >>= fun s' => (f ()).outcome s') := by
  rcases h : m s with ⟨⟨⟩ | ⟨⟩, x⟩
  · simp [outcome, bind_apply, h, Except.map]
  · simp [outcome, bind_apply, h, Except.map]

theorem outcome_compute (x : Res α) (f : α → Mut S Unit) (s : S) :
    (compute x >>= f).outcome s = (x >>= fun a => (f a).outcome s) := by
  cases x with
  | ok a => rfl
  | error e => rfl

theorem outcome_get (f : S → Mut S Unit) (s : S) : (get >>= f).outcome s = (f s).outcome s := rfl

theorem outcome_part (g : S → A) (p : S → A → S) (m : Mut A Unit) (s : S) :
    (part g p m).outcome s = (m.outcome (g s) >>= fun x => .ok (p s x)) := by
  rcases h : m (g s) with ⟨⟨⟩ | ⟨⟩, x⟩ <;> simp [outcome, part_apply, h, Except.map]

theorem outcome_update (f : S → S) (s : S) : (update f).outcome s = .ok (f s) := rfl

theorem outcome_assign (x : Res S) (s : S) : outcome (assign x) s = x := by cases x <;> rfl

/-- a panic leaves the value as it was -/
def Atomic (m : Mut S Unit) : Prop := ∀ s e, (m s).1 = .error e → (m s).2 = s

theorem atomic_update (f : S → S) : (update f).Atomic := fun _ _ h => by cases h

end Mut

namespace Frac
variable {t : NumTy}

theorem intAssign_outcome (op : Int → Int → Res Int) (x y : Int) : (intAssign op y).outcome x = op x y := by
  unfold intAssign
  cases h : op x y <;> simp [Mut.outcome, h, Mut.assign, Except.map]

theorem intAssign_atomic (op : Int → Int → Res Int) (y : Int) : (intAssign op y).Atomic := by
  intro x e h
  unfold intAssign at h ⊢
  cases h' : op x y with
  | ok z => rw [h'] at h; cases h
  | error e => simp [Mut.assign]

theorem replaceWith_outcome (f : Int → Res Int) (x : Int) : (replaceWith f).outcome x = f x := by
  unfold replaceWith
  cases h : f x <;> simp [Mut.outcome, h, Except.map]

theorem reduceMut_outcome (a : Frac) : (reduceMut t).outcome a = reduce t a := by
  obtain ⟨n, d⟩ := a
  unfold reduceMut reduce
  by_cases h0 : d = 0
  · simp [Mut.outcome, h0, Except.map]
  by_cases h1 : n = 0
  · simp [Mut.outcome, h0, h1, Except.map]
  by_cases h2 : n = d
  · simp [Mut.outcome, h0, h2, Except.map]
  simp only [h0, h1, h2, if_false]
  show Mut.outcome (fun a : Frac => if a.den = 0 then _ else _) _ = _
  simp only [Mut.outcome, h0, h1, h2, if_false]
  show Mut.outcome (do
    let g ← Mut.compute (gcd t n d)
    numPart (replaceWith (fun x => t.div x g))
    denPart (replaceWith (fun x => t.div x g))
    let b ← Mut.get
    if b.den < 0 then do
      numPart (replaceWith (fun x => t.sub 0 x))
      denPart (replaceWith (fun x => t.sub 0 x))
    else pure ()) ⟨n, d⟩ = _
  simp only [Mut.outcome_compute, Mut.outcome_bind, numPart, denPart, Mut.outcome_part, replaceWith_outcome,
    Mut.outcome_get]
  congr 1
  funext g
  cases t.div n g with
  | error e => rfl
  | ok n' =>
    simp only [Res.bind_ok]
    cases t.div d g with
    | error e => rfl
    | ok d' =>
      simp only [Res.bind_ok]
      split
      · simp only [Mut.outcome_bind, Mut.outcome_part, replaceWith_outcome]
        cases t.sub 0 n' with
        | error e => rfl
        | ok x => rfl
      · rfl

theorem mulAssign_outcome (a o : Frac) : (mulAssign t o).outcome a = mul t a o := by
  obtain ⟨n, d⟩ := a
  unfold mulAssign mul
  simp only [Mut.outcome_get, Mut.outcome_compute, Mut.outcome_bind, numPart, denPart, Mut.outcome_part,
    intAssign_outcome, reduceMut_outcome]
  congr 1; funext gad
  congr 1; funext gbc
  cases t.div n gad with
  | error e => rfl
  | ok n1 =>
    simp only [Res.bind_ok]
    congr 1; funext n2
    cases t.mul n1 n2 with
    | error e => rfl
    | ok n3 =>
      simp only [Res.bind_ok]
      cases t.div d gbc with
      | error e => rfl
      | ok d1 =>
        simp only [Res.bind_ok]
        congr 1; funext d2
        cases t.mul d1 d2 <;> rfl

theorem addAssign_outcome (a o : Frac) : (addAssign t o).outcome a = add t a o := by
  obtain ⟨n, d⟩ := a
  unfold addAssign add addSub
  rw [Mut.outcome_get]
  by_cases h : d = o.den
  · simp only [h, if_true, Mut.outcome_bind, numPart, Mut.outcome_part, intAssign_outcome, reduceMut_outcome]
    cases t.add n o.num <;> rfl
  · simp only [h, if_false, Mut.outcome_bind, Mut.outcome_assign, reduceMut_outcome, sumOver, bind_assoc, Res.bind_ok]

/-- with a positive denominator there is no panic in `reduce` -/
theorem reduce_returns_pos {n d : Int} (hd : 0 < d) (hn : t.prim.InRange n) (hr : t.prim.InRange d) :
    ∃ r, reduce t ⟨n, d⟩ = .ok r := by
  have h0 := t.prim.inRange_zero
  unfold reduce
  simp only [hd.ne', if_false]
  split
  · exact ⟨_, rfl⟩
  split
  · exact ⟨_, rfl⟩
  obtain ⟨g, u, v, hg, e, rfl, rfl⟩ := gcd_returns (t := t) (x := n) hd.ne' (by rw [abs_of_pos hd]; exact hr.2)
  have hv := (small_pos hd hr).of_mul hg
  have hu : t.prim.InRange u := by
    rcases le_or_gt 0 u with hs | hs
    · exact ⟨h0.1.trans hs, (show u ≤ g * u by nlinarith).trans hn.2⟩
    · exact ⟨hn.1.trans (show g * u ≤ u by nlinarith), hs.le.trans h0.2⟩
  have hv0 : ¬ v < 0 := by
    intro h
    have : g * v < 0 := mul_neg_of_pos_of_neg hg h
    omega
  rw [e]
  simp only [Res.bind_ok, div_mul_left hg hu, div_mul_left hg hv.1, hv0, if_false]
  exact ⟨_, rfl⟩

end Frac
end BSQ
