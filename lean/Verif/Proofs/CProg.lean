import Verif.Model.Querier
import Verif.Proofs.HMap
/-! # Reasoning about querier code -/
namespace BSQ
variable {E : Env} {Q Ent α β γ : Type}

namespace CProg

@[simp] theorem pure_eq (a : α) : (pure a : CProg E Q Ent α) = .ret a := rfl
@[simp] theorem bind_eq (x : CProg E Q Ent α) (f : α → CProg E Q Ent β) : x >>= f = x.bind f := rfl
@[simp] theorem bind_ret (a : α) (f : α → CProg E Q Ent β) : (ret a).bind f = f a := rfl
@[simp] theorem bind_fail (e : Err) (f : α → CProg E Q Ent β) : (fail e : CProg E Q Ent α).bind f = fail e := rfl
@[simp] theorem bind_get (k : CacheKey E Q Ent) (g : Option (Buf E) → CProg E Q Ent α)
    (f : α → CProg E Q Ent β) : (get k g).bind f = get k (fun o => (g o).bind f) := rfl
@[simp] theorem bind_put (k : CacheKey E Q Ent) (b : Buf E) (x : CProg E Q Ent α)
    (f : α → CProg E Q Ent β) : (put k b x).bind f = put k b (x.bind f) := rfl
@[simp] theorem bind_clear (x : CProg E Q Ent α) (f : α → CProg E Q Ent β) :
    (clear x).bind f = clear (x.bind f) := rfl
@[simp] theorem lift_ok (a : α) : (lift (.ok a) : CProg E Q Ent α) = ret a := rfl
@[simp] theorem lift_error (e : Err) : (lift (.error e) : CProg E Q Ent α) = fail e := rfl

theorem bind_assoc (x : CProg E Q Ent α) (f : α → CProg E Q Ent β) (g : β → CProg E Q Ent γ) :
    (x.bind f).bind g = x.bind (fun a => (f a).bind g) := by
  induction x with
  | ret a => rfl
  | fail e => rfl
  | get k h ih => simp [ih]
  | put k b h ih => simp [ih]
  | clear h ih => simp [ih]

@[simp] theorem bind_ret_right (x : CProg E Q Ent α) : x.bind ret = x := by
  induction x with
  | ret a => rfl
  | fail e => rfl
  | get k h ih => simp [ih]
  | put k b h ih => simp [ih]
  | clear h ih => simp [ih]

@[simp] theorem cold_ret (a : α) : (ret a : CProg E Q Ent α).cold = .ok a := rfl
@[simp] theorem cold_fail (e : Err) : (fail e : CProg E Q Ent α).cold = .error e := rfl
@[simp] theorem cold_get (k : CacheKey E Q Ent) (f : Option (Buf E) → CProg E Q Ent α) :
    (get k f).cold = (f none).cold := rfl
@[simp] theorem cold_put (k : CacheKey E Q Ent) (b : Buf E) (f : CProg E Q Ent α) :
    (put k b f).cold = f.cold := rfl
@[simp] theorem cold_clear (f : CProg E Q Ent α) : (clear f).cold = f.cold := rfl
@[simp] theorem cold_lift (r : Res α) : (lift r : CProg E Q Ent α).cold = r := by cases r <;> rfl
@[simp] theorem cold_bind (x : CProg E Q Ent α) (f : α → CProg E Q Ent β) :
    (x.bind f).cold = x.cold >>= fun a => (f a).cold := by
  induction x with
  | ret a => rfl
  | fail e => rfl
  | get k h ih => simp [ih]
  | put k b h ih => simp [ih]
  | clear h ih => simp [ih]

@[simp] theorem attempt_ret (a : α) : (ret a : CProg E Q Ent α).attempt = ret (some a) := rfl
@[simp] theorem attempt_get (k : CacheKey E Q Ent) (f : Option (Buf E) → CProg E Q Ent α) :
    (get k f).attempt = get k (fun o => (f o).attempt) := rfl
@[simp] theorem attempt_put (k : CacheKey E Q Ent) (b : Buf E) (f : CProg E Q Ent α) :
    (put k b f).attempt = put k b f.attempt := rfl
@[simp] theorem attempt_clear (f : CProg E Q Ent α) : (clear f).attempt = clear f.attempt := rfl

section run
variable [DecidableEq Q] [DecidableEq Ent] (A : Addr E) (c : Cache E Q Ent)

@[simp] theorem run_ret (a : α) : (ret a : CProg E Q Ent α).run A c = (.ok a, c) := rfl
@[simp] theorem run_fail (e : Err) : (fail e : CProg E Q Ent α).run A c = (.error e, c) := rfl
@[simp] theorem run_get (k : CacheKey E Q Ent) (f : Option (Buf E) → CProg E Q Ent α) :
    (get k f).run A c = (f (HMap.get (CacheKey.eq A) c k)).run A c := rfl
@[simp] theorem run_put (k : CacheKey E Q Ent) (b : Buf E) (f : CProg E Q Ent α) :
    (put k b f).run A c = f.run A (HMap.insert (CacheKey.eq A) c k b).1 := rfl
theorem run_clear (f : CProg E Q Ent α) : (clear f).run A c =
    match c.clear with
    | .ok c' => f.run A c'
    | .error e => (.error e, c) := rfl
theorem run_clear_ok {c' : Cache E Q Ent} (h : c.clear = .ok c') (f : CProg E Q Ent α) :
    (clear f).run A c = f.run A c' := by rw [run_clear, h]
@[simp] theorem run_lift (r : Res α) : (lift r : CProg E Q Ent α).run A c = (r, c) := by cases r <;> rfl

theorem run_bind (x : CProg E Q Ent α) (f : α → CProg E Q Ent β) :
    (x.bind f).run A c = match x.run A c with
      | (.ok a, c') => (f a).run A c'
      | (.error e, c') => (.error e, c') := by
  induction x generalizing c with
  | ret a => rfl
  | fail e => rfl
  | get k h ih => simp [ih]
  | put k b h ih => simp [ih]
  | clear h ih =>
    rw [bind_clear, run_clear, run_clear]
    cases c.clear with
    | ok c' => exact ih c'
    | error e => rfl

end run

/-- Whatever the cache answers among what `okGet` allows, the code only stores what `okPut` allows, and its
outcome satisfies `P`. -/
def Good (okGet : CacheKey E Q Ent → Option (Buf E) → Prop) (okPut : CacheKey E Q Ent → Buf E → Prop)
    (P : Res α → Prop) : CProg E Q Ent α → Prop
  | ret a => P (.ok a)
  | fail e => P (.error e)
  | get k f => ∀ o, okGet k o → Good okGet okPut P (f o)
  | put k b f => okPut k b ∧ Good okGet okPut P f
  | clear f => Good okGet okPut P f

namespace Good
variable {okGet : CacheKey E Q Ent → Option (Buf E) → Prop} {okPut : CacheKey E Q Ent → Buf E → Prop}
  {P : Res α → Prop} {R : Res β → Prop}

theorem bind {x : CProg E Q Ent α} {f : α → CProg E Q Ent β} (hx : Good okGet okPut P x)
    (hf : ∀ a, P (.ok a) → Good okGet okPut R (f a)) (he : ∀ e, P (.error e) → R (.error e)) :
    Good okGet okPut R (x.bind f) := by
  induction x with
  | ret a => exact hf a hx
  | fail e => exact he e hx
  | get k g ih => exact fun o ho => ih o (hx o ho)
  | put k b g ih => exact ⟨hx.1, ih hx.2⟩
  | clear g ih => exact ih hx

theorem mono {P' : Res α → Prop} {x : CProg E Q Ent α} (hx : Good okGet okPut P x)
    (h : ∀ r, P r → P' r) : Good okGet okPut P' x := by
  induction x with
  | ret a => exact h _ hx
  | fail e => exact h _ hx
  | get k g ih => exact fun o ho => ih o (hx o ho)
  | put k b g ih => exact ⟨hx.1, ih hx.2⟩
  | clear g ih => exact ih hx

theorem lift {r : Res α} (h : P r) : Good okGet okPut P (CProg.lift r : CProg E Q Ent α) := by
  cases r <;> exact h

theorem cold {x : CProg E Q Ent α} (hn : ∀ k, okGet k none) (hx : Good okGet okPut P x) : P x.cold := by
  induction x with
  | ret a => exact hx
  | fail e => exact hx
  | get k g ih => exact ih none (hx none (hn k))
  | put k b g ih => exact ih hx.2
  | clear g ih => exact ih hx

/-- with a cache whose contents satisfy an invariant; clearing keeps it, or fails in a way that is allowed -/
theorem run [DecidableEq Q] [DecidableEq Ent] {A : Addr E} (Inv : Cache E Q Ent → Prop)
    (hget : ∀ c, Inv c → ∀ k, okGet k (HMap.get (CacheKey.eq A) c k))
    (hput : ∀ c k b, Inv c → okPut k b → Inv (HMap.insert (CacheKey.eq A) c k b).1)
    (hclear : ∀ c : Cache E Q Ent, Inv c → match c.clear with | .ok c' => Inv c' | .error e => P (.error e))
    {x : CProg E Q Ent α} (hx : Good okGet okPut P x) {c : Cache E Q Ent} (hc : Inv c) :
    P (x.run A c).1 ∧ Inv (x.run A c).2 := by
  induction x generalizing c with
  | ret a => exact ⟨hx, hc⟩
  | fail e => exact ⟨hx, hc⟩
  | get k g ih => exact ih _ (hx _ (hget c hc k)) hc
  | put k b g ih => exact ih hx.2 (hput c k b hc hx.1)
  | clear g ih =>
    have := hclear c hc
    rw [run_clear]
    cases h : c.clear with
    | ok c' => rw [h] at this; exact ih hx this
    | error e => rw [h] at this; exact ⟨this, hc⟩

end Good
end CProg
end BSQ
