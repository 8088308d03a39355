/-!
# Outcomes

Rust functions that may panic, perform undefined behaviour or fail to return are modelled as
functions into `Res`.
-/
namespace BSQ

/-- Abnormal outcomes.
* `panic` : a Rust panic (`assert!`, `unwrap`, arithmetic overflow with overflow checks, `validate`).
* `ub`    : undefined behaviour, i.e. a `Buffer` is read at a type it was not written with
            (buffer.rs:40-73, stat.rs:317-350).
* `fuel`  : the bounded recursion depth given to the model is exhausted (a real run would recurse
            deeper, possibly until the stack overflows). -/
inductive Err where
  | panic
  | ub
  | fuel
  deriving DecidableEq, Repr

/-- Result of a Rust call. -/
abbrev Res (α : Type u) := Except Err α

instance {α : Type u} [DecidableEq α] : DecidableEq (Except Err α)
  | .ok a, .ok b => if h : a = b then isTrue (by rw [h]) else isFalse (by intro h'; cases h'; exact h rfl)
  | .error a, .error b =>
    if h : a = b then isTrue (by rw [h]) else isFalse (by intro h'; cases h'; exact h rfl)
  | .ok _, .error _ => isFalse (by intro h; cases h)
  | .error _, .ok _ => isFalse (by intro h; cases h)

@[simp] theorem Res.bind_ok {α β : Type} (a : α) (f : α → Res β) :
    ((Except.ok a : Res α) >>= f) = f a := rfl
@[simp] theorem Res.bind_error {α β : Type} (e : Err) (f : α → Res β) :
    ((Except.error e : Res α) >>= f) = .error e := rfl
@[simp] theorem Res.pure_eq {α : Type} (a : α) : (pure a : Res α) = .ok a := rfl

theorem Res.bind_eq_ok {α β : Type} {x : Res α} {f : α → Res β} {b : β} :
    (x >>= f) = .ok b ↔ ∃ a, x = .ok a ∧ f a = .ok b := by
  cases x <;> simp

@[simp] theorem Res.map_ok {α β : Type} (a : α) (f : α → β) :
    (f <$> (Except.ok a : Res α)) = .ok (f a) := rfl
@[simp] theorem Res.map_error {α β : Type} (e : Err) (f : α → β) :
    (f <$> (Except.error e : Res α)) = .error e := rfl

end BSQ
