import Verif.Model.IterMut
import Verif.Spec.Multimap
/-!
# What a caller of `iter_mut` should see and do: a program on a list of qualifiers with values
-/
namespace BSQ
variable {E : Env} {Q V ρ : Type}

/-- The caller's program on a plain list: `done` are the items handed out so far, with what was written to them since,
`todo` those still to come. -/
def IterProg.onList : IterProg Q V ρ → (done todo : List (Qualifier Q × V)) → List (Qualifier Q × V) × Res ρ
  | .ret a, done, todo => (done ++ todo, .ok a)
  | .fail e, done, todo => (done ++ todo, .error e)
  | .next k, done, [] => (k none).onList done []
  | .next k, done, x :: todo => (k (some x)).onList (done ++ [x]) todo
  | .write i v k, done, todo => k.onList (done.modify i (fun p => (p.1, v))) todo

/-- `for (q, x) in map.iter_mut(stat) { *x = f(q, x)? }`, for at most `n` items, `i` having gone before -/
def IterProg.forEach (f : Qualifier Q → V → Res V) : (n i : Nat) → IterProg Q V Unit
  | 0, _ => .ret ()
  | n + 1, i => .next fun
    | none => .ret ()
    | some (q, v) =>
      match f q v with
      | .error e => .fail e
      | .ok v' => .write i v' (forEach f n (i + 1))

/-- exchanging the first two values, `mem::swap(a, b)` of two collected references; whether there were two -/
def IterProg.swapTwo : IterProg Q V Bool :=
  .next fun
  | none => .ret false
  | some (_, v) => .next fun
    | none => .ret false
    | some (_, w) => .write 0 w (.write 1 v (.ret true))

/-- the program ends in an error of its own whatever it is shown: the errors are among `P` -/
inductive IterProg.FailsOnly (P : Err → Prop) : IterProg Q V ρ → Prop where
  | ret (a) : FailsOnly P (.ret a)
  | fail (e) : P e → FailsOnly P (.fail e)
  | next (k) : (∀ x, FailsOnly P (k x)) → FailsOnly P (.next k)
  | write (i v k) : FailsOnly P k → FailsOnly P (.write i v k)

/-- storing the values of a list back one by one -/
def MapOp.stores (s : StatInst E) (l : List (Qualifier Q × s.Val)) : List (MapOp E Q) :=
  l.map fun p => .getMut p.1 s (fun _ => .ok p.2)

end BSQ
