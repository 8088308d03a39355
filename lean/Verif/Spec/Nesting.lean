import Verif.Spec.Querier
/-!
# Which queries a query makes

Written from the outside: which questions user code puts to the querier when earlier ones are answered by `o`.
-/
namespace BSQ
variable {E : Env} {Q Ent α : Type}

/-- the code puts the question `r'` when its questions are answered by `o` -/
def Prog.Makes (o : Oracle E Q Ent) (r' : Req E Q Ent) : Prog E Q Ent α → Prop
  | ret _ => False
  | fail _ => False
  | ask r k => r = r' ∨ ∃ x, o r = .ok x ∧ Makes o r' (k x)
  | attempt r k => r = r' ∨ ∃ x, (o r).attempt = .ok x ∧ Makes o r' (k x)
  | clear k => Makes o r' k
  | store _ _ p k => (∃ b, p.cloneBuffer = .ok b) ∧ Makes o r' k

/-- one of the calls, made one after another as long as they return, puts the question -/
def callsMake (o : Oracle E Q Ent) (r' : Req E Q Ent) : List (Call E Q Ent) → Pair E → Prop
  | [], _ => False
  | c :: cs, p => (c p).Makes o r' ∨ ∃ p', (c p).eval o = .ok p' ∧ callsMake o r' cs p'

/-- the same for calls made until one says yes -/
def anyMake (o : Oracle E Q Ent) (r' : Req E Q Ent) : List (Prog E Q Ent Bool) → Prop
  | [] => False
  | c :: cs => c.Makes o r' ∨ c.eval o = .ok false ∧ anyMake o r' cs

/-- answering `r` involves the question `r'`, if questions are answered by `o` -/
def Joined.Makes (A : Addr E) (J : Joined E Q Ent) (o : Oracle E Q Ent) (r' : Req E Q Ent) : Req E Q Ent → Prop
  | .stat e q s => Storable (E.layout s.ty) ∧ J.world.isStat e = true ∧
      ∃ v, J.world.startValue A s = .ok v ∧ callsMake o r' (J.statCalls e q) ⟨s, v⟩
  | .relation a b q s => Storable (E.layout s.ty) ∧ J.world.isStat a = true ∧ J.world.isStat b = true ∧
      ∃ v, J.world.startValue A s = .ok v ∧ callsMake o r' (J.relationCalls a b q) ⟨s, v⟩
  | .attr e a => anyMake o r' (J.attrCalls e a)

/-- the request `r'` is made while `r` is answered, by its streams and not by those of another request in
between, given enough depth -/
def Joined.Nests (A : Addr E) (J : Joined E Q Ent) (r' r : Req E Q Ent) : Prop :=
  ∃ n, J.Makes A (J.answer A n) r' r

/-- user code does not run forever by itself -/
abbrev Joined.Ends (J : Joined E Q Ent) : Prop := J.Each fun {_} p => p.All (· ≠ .error .fuel)

end BSQ
