import Verif.Model.Querier
import Verif.Spec.StatMap
/-!
# What a query should do, without caching and without the tree of joined streams
-/
namespace BSQ
variable {E : Env} {Q Ent α : Type}

/-- answers to all questions -/
abbrev Oracle (E : Env) (Q Ent : Type) := (r : Req E Q Ent) → Res r.Resp

/-- catch a panic: `none` if there was one.  Undefined behaviour and running out of stack cannot be caught. -/
def Res.attempt : Res α → Res (Option α)
  | .ok a => .ok (some a)
  | .error .panic => .ok none
  | .error .ub => .error .ub
  | .error .fuel => .error .fuel

namespace Prog

/-- the outcome of user code when its questions are answered by `o` -/
def eval (o : Oracle E Q Ent) : Prog E Q Ent α → Res α
  | ret a => .ok a
  | fail e => .error e
  | ask r k => o r >>= fun x => eval o (k x)
  | attempt r k => (o r).attempt >>= fun x => eval o (k x)
  | clear k => eval o k
  | store _ _ p k => p.cloneBuffer >>= fun _ => eval o k

/-- every outcome of the code, whatever it is answered, satisfies `P` -/
def All (P : Res α → Prop) : Prog E Q Ent α → Prop
  | ret a => P (.ok a)
  | fail e => P (.error e)
  | ask _ k => ∀ x, All P (k x)
  | attempt _ k => ∀ x, All P (k x)
  | clear k => All P k
  | store _ _ p k => match p.cloneBuffer with
    | .ok _ => All P k
    | .error e => P (.error e)

/-- every question the code may ask, whatever it is answered, satisfies `R` -/
def Asks (R : Req E Q Ent → Prop) : Prog E Q Ent α → Prop
  | ret _ => True
  | fail _ => True
  | ask r k => R r ∧ ∀ x, Asks R (k x)
  | attempt r k => R r ∧ ∀ x, Asks R (k x)
  | clear k => Asks R k
  | store _ _ _ k => Asks R k

/-- the same, and the code does not catch panics of the answers -/
def Trusts (R : Req E Q Ent → Prop) : Prog E Q Ent α → Prop
  | ret _ => True
  | fail _ => True
  | ask r k => R r ∧ ∀ x, Trusts R (k x)
  | attempt _ _ => False
  | clear k => Trusts R k
  | store _ _ _ k => Trusts R k

/-- the code does not touch the cache itself, whatever it is answered -/
def Quiet : Prog E Q Ent α → Prop
  | ret _ => True
  | fail _ => True
  | ask _ k => ∀ x, Quiet (k x)
  | attempt _ k => ∀ x, Quiet (k x)
  | clear _ => False
  | store _ _ _ _ => False

/-- the code stores nothing in the cache itself, whatever it is answered -/
def NoStore : Prog E Q Ent α → Prop
  | ret _ => True
  | fail _ => True
  | ask _ k => ∀ x, NoStore (k x)
  | attempt _ k => ∀ x, NoStore (k x)
  | clear k => NoStore k
  | store _ _ _ _ => False

end Prog

/-- one call of user code that may change the pair -/
abbrev Call (E : Env) (Q Ent : Type) := Pair E → Prog E Q Ent (Pair E)

/-- make the calls one after another -/
def runCalls (o : Oracle E Q Ent) : List (Call E Q Ent) → Pair E → Res (Pair E)
  | [], p => .ok p
  | c :: cs, p => (c p).eval o >>= fun p' => runCalls o cs p'

/-- the same as querier code -/
def callsCode (h : Handler E Q Ent) : List (Call E Q Ent) → Pair E → CProg E Q Ent (Pair E)
  | [], p => .ret p
  | c :: cs, p => ((c p).interp h).bind fun p' => callsCode h cs p'

/-- ask yes/no questions until one is answered yes -/
def anyCode (h : Handler E Q Ent) : List (Prog E Q Ent Bool) → CProg E Q Ent Bool
  | [] => .ret false
  | c :: cs => (c.interp h).bind fun b => if b then .ret true else anyCode h cs

/-- the streams that were joined, in the order they were added -/
def Streams.leaves : Streams E Q Ent → List (CStream E Q Ent)
  | unit => []
  | pair l r => l.leaves ++ r.leaves
  | cx st => [st]

/-- the calls a stream makes for a list of entities: one for each entity that matches its query -/
def CStream.calls (st : CStream E Q Ent) (this : Ent) (q : QualifierQuery Q) (es : List Ent) :
    List (Call E Q Ent) :=
  (es.filterMap st.query).map (fun it => st.stream this it q)

/-- the call a relation stream makes: only if both entities match -/
def CStream.relationCalls (st : CStream E Q Ent) (a b : Ent) (q : QualifierQuery Q) : List (Call E Q Ent) :=
  match st.query a, st.query b with
  | some x, some y => [st.relation x y q]
  | _, _ => []

/-- the questions about an attribute a stream is asked -/
def CStream.attrCalls (st : CStream E Q Ent) (this : Ent) (a : String) (es : List Ent) :
    List (Prog E Q Ent Bool) :=
  (es.filterMap st.query).map (fun it => st.attr this it a)

/-- is any of the questions answered yes? -/
def anyCalls (o : Oracle E Q Ent) : List (Prog E Q Ent Bool) → Res Bool
  | [] => .ok false
  | c :: cs => c.eval o >>= fun b => if b then .ok true else anyCalls o cs

namespace Joined
variable (J : Joined E Q Ent)

/-- All calls made for `query_stat` on an entity: the global relations in registration order, the streams on
the entity, the relation streams on the entity, then each children stream on each child. -/
def statCalls (e : Ent) (q : QualifierQuery Q) : List (Call E Q Ent) :=
  (J.world.relations.getD []).map (fun g => g e q)
  ++ J.comp.leaves.flatMap (fun st => st.calls e q [e])
  ++ J.rel.leaves.flatMap (fun st => st.calls e q [e])
  ++ J.child.leaves.flatMap (fun st => st.calls e q ((J.world.children e).getD []))

/-- All calls made for `query_relation`. -/
def relationCalls (a b : Ent) (q : QualifierQuery Q) : List (Call E Q Ent) :=
  (J.world.relations.getD []).map (fun g => g J.world.placeholder q)
  ++ J.rel.leaves.flatMap (fun st => st.relationCalls a b q)

/-- All questions asked for `has_attribute`. -/
def attrCalls (e : Ent) (a : String) : List (Prog E Q Ent Bool) :=
  J.comp.leaves.flatMap (fun st => st.attrCalls e a [e])
  ++ J.rel.leaves.flatMap (fun st => st.attrCalls e a [e])
  ++ (if J.world.isStat e then
        J.child.leaves.flatMap (fun st => st.attrCalls e a ((J.world.children e).getD []))
      else [])

/-- What a request should come to when the questions of streams are answered by `o`: for a `StatEntity`, the
start value passed through all calls. -/
def ideal (A : Addr E) (o : Oracle E Q Ent) : (r : Req E Q Ent) → Res r.Resp
  | .stat e q s => do
    validate (E.layout s.ty)
    if J.world.isStat e then do
      let v ← J.world.startValue A s
      let p ← runCalls o (J.statCalls e q) ⟨s, v⟩
      let x ← p.value.read s.ty
      .ok (some x)
    else .ok none
  | .relation a b q s => do
    validate (E.layout s.ty)
    if J.world.isStat a && J.world.isStat b then do
      let v ← J.world.startValue A s
      let p ← runCalls o (J.relationCalls a b q) ⟨s, v⟩
      let x ← p.value.read s.ty
      .ok (some x)
    else .ok none
  | .attr e a => anyCalls o (J.attrCalls e a)

/-- the same querier in a world without `StatCache` -/
def noCache : Joined E Q Ent := { J with world := { J.world with cached := false } }

/-- the outcome of a request with recursion depth at most `n`, without a cache -/
def answer (A : Addr E) (n : Nat) (r : Req E Q Ent) : Res r.Resp := (J.noCache.handle A n r).cold

end Joined

/-! ### well-behaved user code -/

/-- a pair whose value has its stat's type: the safety invariant of `StatValuePair` (stat.rs:279-280) -/
def Pair.Typed (p : Pair E) : Prop := ∃ v : p.stat.Val, p.value = .val p.stat.ty v

/-- The code, given a pair whose value has its stat's type, leaves such a pair with the same stat, and does no
undefined behaviour of its own.  Code that only uses `cast`, `is_then_cast`, `match_stat!` and assigns through
the references it gets is like this (`C36`, `C38`); code that overwrites the whole pair need not be. -/
def Call.Safe (c : Call E Q Ent) : Prop :=
  ∀ p, p.Typed → (c p).All fun
    | .ok p' => p'.stat = p.stat ∧ p'.Typed
    | .error x => x ≠ .ub

/-- all user code of the querier is well-behaved on the components there are, and the registered defaults have the right type -/
structure Joined.Safe (A : Addr E) (J : Joined E Q Ent) : Prop where
  globals : ∀ g ∈ J.world.relations.getD [], ∀ e q, Call.Safe (g e q)
  streams : ∀ st ∈ J.comp.leaves ++ J.rel.leaves ++ J.child.leaves, ∀ e it, st.query e = some it →
    ∀ this q, Call.Safe (st.stream this it q)
  relations : ∀ st ∈ J.rel.leaves, ∀ a b q, Call.Safe (st.relation a b q)
  attrs : ∀ st ∈ J.comp.leaves ++ J.rel.leaves ++ J.child.leaves, ∀ e it, st.query e = some it → ∀ this a,
    (st.attr this it a).All (fun r => r ≠ .error .ub)
  defaults : ∀ d ∈ J.world.defaults, ∀ s b, HMap.get (StatInst.eq A) d s = some b →
    ∃ v : s.Val, b = .val s.ty v ∧ Storable (E.layout s.ty)

/-- all user code that requests involve satisfies `P` -/
structure Joined.Each (P : ∀ {α : Type}, Prog E Q Ent α → Prop) (J : Joined E Q Ent) : Prop where
  stat : ∀ e q, ∀ c ∈ J.statCalls e q, ∀ p, P (c p)
  relation : ∀ a b q, ∀ c ∈ J.relationCalls a b q, ∀ p, P (c p)
  attr : ∀ e a, ∀ c ∈ J.attrCalls e a, P c

/-- none of the user code a request involves touches the cache itself -/
abbrev Joined.Quiet (J : Joined E Q Ent) : Prop := J.Each Prog.Quiet

/-- none of the user code a request involves stores anything in the cache itself -/
abbrev Joined.NoStore (J : Joined E Q Ent) : Prop := J.Each Prog.NoStore

/-! ### user code that only stores right results -/

/-- As long as its questions are answered correctly, the code stores a pair in the cache, for an entity and a query,
only if it is what that query of that entity returns. -/
def Prog.Honest (A : Addr E) (J : Joined E Q Ent) : Prog E Q Ent α → Prop
  | ret _ => True
  | fail _ => True
  | ask r k => ∀ x, (∃ m, J.answer A m r = .ok x) → Honest A J (k x)
  | attempt r k => ∀ x, (∃ m, (J.answer A m r).attempt = .ok x) → Honest A J (k x)
  | clear k => Honest A J k
  | store e q p k =>
    (∀ v : p.stat.Val, p.value = .val p.stat.ty v → ∃ m, J.answer A m (.stat e q p.stat) = .ok (some v)) ∧
      Honest A J k

/-- the same for calls made one after another, starting with a pair -/
def HonestCalls (A : Addr E) (J : Joined E Q Ent) : List (Call E Q Ent) → Pair E → Prop
  | [], _ => True
  | c :: cs, p => (c p).Honest A J ∧ ∀ m p', (c p).eval (J.answer A m) = .ok p' → HonestCalls A J cs p'

/-- all user code of the querier is well-behaved and only stores right results in the cache -/
structure Joined.Honest (A : Addr E) (J : Joined E Q Ent) : Prop where
  safe : J.Safe A
  stat : ∀ e q s v, J.world.isStat e = true → J.world.startValue A s = .ok v →
    HonestCalls A J (J.statCalls e q) ⟨s, v⟩
  relation : ∀ a b q s v, J.world.isStat a = true → J.world.isStat b = true → J.world.startValue A s = .ok v →
    HonestCalls A J (J.relationCalls a b q) ⟨s, v⟩
  attr : ∀ e a, ∀ c ∈ J.attrCalls e a, c.Honest A J

/-- What queries store in the cache is right.  Let the calls of a stat query leave `p` (they may have changed both
stat and value).  Then the value is one of that stat, and the result of the query for that stat; or it is neither one
of that stat nor of the stat asked for, so that the query fails with or without a cache. -/
def Joined.StoresRight (A : Addr E) (J : Joined E Q Ent) : Prop :=
  ∀ e q s v m p, J.world.isStat e = true → Storable (E.layout s.ty) → J.world.startValue A s = .ok v →
    runCalls (J.answer A m) (J.statCalls e q) ⟨s, v⟩ = .ok p →
    Storable (E.layout p.stat.ty) ∧
      ((∃ (v' : p.stat.Val) (m' : Nat), p.value = .val p.stat.ty v' ∧ J.answer A m' (.stat e q p.stat) = .ok (some v')) ∨
        (∀ v' : p.stat.Val, p.value ≠ .val p.stat.ty v') ∧ ∀ v' : s.Val, p.value ≠ .val s.ty v')

/-- what queries store in the cache is right, and what the user code stores there itself -/
structure Joined.Right (A : Addr E) (J : Joined E Q Ent) : Prop where
  results : J.world.cached = true → J.StoresRight A
  stat : ∀ e q s v, J.world.isStat e = true → J.world.startValue A s = .ok v →
    HonestCalls A J (J.statCalls e q) ⟨s, v⟩
  relation : ∀ a b q s v, J.world.isStat a = true → J.world.isStat b = true → J.world.startValue A s = .ok v →
    HonestCalls A J (J.relationCalls a b q) ⟨s, v⟩
  attr : ∀ e a, ∀ c ∈ J.attrCalls e a, c.Honest A J

/-! ### histories -/

/-- what happens to one cache over time -/
inductive Event (E : Env) (Q Ent : Type) : Type 1 where
  /-- a request, with recursion depth at most `n` -/
  | query (n : Nat) (r : Req E Q Ent)
  | clear
  /-- the world or the set of joined streams changes -/
  | change (J : Joined E Q Ent)

/-- a request, the querier it was made with, and its outcome -/
structure Outcome (E : Env) (Q Ent : Type) : Type 1 where
  querier : Joined E Q Ent
  depth : Nat
  req : Req E Q Ent
  res : Res req.Resp

/-- run a history with the crate's code; stops when clearing fails -/
def history [DecidableEq Q] [DecidableEq Ent] (A : Addr E) :
    Joined E Q Ent → Cache E Q Ent → List (Event E Q Ent) → List (Outcome E Q Ent) × Cache E Q Ent
  | _, c, [] => ([], c)
  | J, c, .query n r :: evs =>
    let x := (J.handle A n r).run A c
    let rest := history A J x.2 evs
    (⟨J, n, r, x.1⟩ :: rest.1, rest.2)
  | J, c, .clear :: evs =>
    match c.clear with
    | .ok c' => history A J c' evs
    | .error _ => ([], c)
  | _, c, .change J :: evs => history A J c evs

/-- each change is followed by a clear before the next request; `stale` says a change has not been followed by
a clear yet -/
def Cleared : (stale : Bool) → List (Event E Q Ent) → Prop
  | _, [] => True
  | stale, .query _ _ :: evs => stale = false ∧ Cleared stale evs
  | _, .clear :: evs => Cleared false evs
  | _, .change _ :: evs => Cleared true evs

/-- the cache is not cleared in the history: there is no clear in it, and streams do not clear it, or store in it,
during the requests, the first ones of which are made through `J` -/
def NotCleared : (J : Joined E Q Ent) → List (Event E Q Ent) → Prop
  | _, [] => True
  | J, .query _ _ :: evs => J.Quiet ∧ NotCleared J evs
  | _, .clear :: _ => False
  | _, .change J :: evs => NotCleared J evs

/-- `res` is the outcome of the request without a cache: it agrees with the uncached run at the same depth,
unless that runs out of depth (finding a cached value saves depth), and any outcome is that of an uncached run
of sufficient depth. -/
def Faithful (A : Addr E) (J : Joined E Q Ent) (n : Nat) (r : Req E Q Ent) (res : Res r.Resp) : Prop :=
  (J.answer A n r ≠ .error .fuel → res = J.answer A n r) ∧
  (res ≠ .error .fuel → ∃ m, J.answer A m r = res)

end BSQ
