import Verif.Spec.Querier
/-!
# What queries may come to without a cache, if each request is served by some querier of a set
-/
namespace BSQ
variable {E : Env} {Q Ent α β : Type}

/-- for each question, the outcomes it may have -/
abbrev Outcomes (E : Env) (Q Ent : Type) := (r : Req E Q Ent) → Res r.Resp → Prop

/-- first one thing, then, if it returns, another; both may have several outcomes -/
def Then (M : Res α → Prop) (K : α → Res β → Prop) (x : Res β) : Prop :=
  (∃ a, M (.ok a) ∧ K a x) ∨ ∃ e, M (.error e) ∧ x = .error e

/-- the outcomes that user code may have when each of its questions has one of the outcomes `O` -/
def Prog.May (O : Outcomes E Q Ent) : Prog E Q Ent α → Res α → Prop
  | ret a => (· = .ok a)
  | fail e => (· = .error e)
  | ask r k => Then (O r) fun x => (k x).May O
  | attempt r k => Then (fun y => ∃ x, O r x ∧ y = x.attempt) fun x => (k x).May O
  | clear k => k.May O
  | store _ _ p k => Then (· = p.cloneBuffer) fun _ => k.May O

/-- calls one after another -/
def CallsMay (O : Outcomes E Q Ent) : List (Call E Q Ent) → Pair E → Res (Pair E) → Prop
  | [], p => (· = .ok p)
  | c :: cs, p => Then ((c p).May O) (CallsMay O cs)

/-- yes/no questions until one is answered yes -/
def AnyMay (O : Outcomes E Q Ent) : List (Prog E Q Ent Bool) → Res Bool → Prop
  | [] => (· = .ok false)
  | c :: cs => Then (c.May O) fun b => if b then (· = .ok true) else AnyMay O cs

/-- the outcomes a request to `J` may have when each question of streams has one of the outcomes `O`: as
`Joined.ideal` -/
def Joined.May (A : Addr E) (J : Joined E Q Ent) (O : Outcomes E Q Ent) : Outcomes E Q Ent
  | .stat e q s =>
    Then (· = validate (E.layout s.ty)) fun _ =>
      if J.world.isStat e then
        Then (· = J.world.startValue A s) fun v =>
          Then (CallsMay O (J.statCalls e q) ⟨s, v⟩) fun p =>
            Then (· = p.value.read s.ty) fun x => (· = .ok (some x))
      else (· = .ok none)
  | .relation a b q s =>
    Then (· = validate (E.layout s.ty)) fun _ =>
      if J.world.isStat a && J.world.isStat b then
        Then (· = J.world.startValue A s) fun v =>
          Then (CallsMay O (J.relationCalls a b q) ⟨s, v⟩) fun p =>
            Then (· = p.value.read s.ty) fun x => (· = .ok (some x))
      else (· = .ok none)
  | .attr e a => AnyMay O (J.attrCalls e a)

/-- The outcomes a request may have, with recursion depth at most `n` and without a cache, when each request, nested
ones included, is served by some querier of `F`, and each of a stream's questions is asked anew. -/
def Mixed (A : Addr E) (F : Joined E Q Ent → Prop) : Nat → Outcomes E Q Ent
  | 0, _ => (· = .error .fuel)
  | n + 1, r => fun x => ∃ J, F J ∧ J.May A (Mixed A F n) r x

/-- the queriers that serve the requests of a history: the first one and those it is changed to -/
def Serving (F : Joined E Q Ent → Prop) (J : Joined E Q Ent) (evs : List (Event E Q Ent)) : Prop :=
  F J ∧ ∀ J', .change J' ∈ evs → F J'

end BSQ
