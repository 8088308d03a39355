import Verif.Model.Plugin
import Verif.Model.StatMap
/-!
# Streams and queriers  (src/stream.rs, src/querier.rs, src/plugin.rs:193-236)

User code (streams) is arbitrary deterministic code that may ask the querier it is handed any number of
questions, one after another, use the answers and catch panics; it may also clear the cache and store pairs in it, which is a
public resource it can reach through its context.  It is a tree `Prog`.  The crate's querier turns such a
tree into a `CProg`, whose only remaining effects are accesses to the shared cache.  The same `CProg` can
then be run alone on a cache (`CProg.run`), interleaved with other threads (`Step`), or as if nothing were
ever cached (`CProg.cold`).

Simplifications: the ECS world does not change while a query runs (queries hold shared borrows); `Query`
access is the function from entities to the matched item; stream code that does not terminate by itself,
without asking the querier, is represented by `Prog.fail .fuel`.
-/
namespace BSQ
variable {E : Env} {Q Ent : Type}

/-- the questions a stream can ask its `Querier` (querier.rs:102-157).  `query_eval` and
`query_relation_eval` (querier.rs:130-152) are the first two followed by `eval`. -/
inductive Req (E : Env) (Q Ent : Type) where
  | stat (e : Ent) (q : QualifierQuery Q) (s : StatInst E)
  | relation (a b : Ent) (q : QualifierQuery Q) (s : StatInst E)
  | attr (e : Ent) (a : String)

/-- the type of answers -/
def Req.Resp : Req E Q Ent → Type
  | .stat _ _ s => Option s.Val
  | .relation _ _ _ s => Option s.Val
  | .attr _ _ => Bool

/-- user code -/
inductive Prog (E : Env) (Q Ent : Type) (α : Type) where
  | ret (a : α)
  | fail (e : Err)
  | ask (r : Req E Q Ent) (k : r.Resp → Prog E Q Ent α)
  /-- ask, and catch the panic if answering panics (`std::panic::catch_unwind`): the code then goes on with `none` -/
  | attempt (r : Req E Q Ent) (k : Option r.Resp → Prog E Q Ent α)
  /-- `StatCache::clear` (cache.rs:84-90) through a `Res<StatCache<Q>>` in the stream's context
  (`ComponentStream::Cx`, stream.rs:134), if there is a cache -/
  | clear (k : Prog E Q Ent α)
  /-- `StatCache::cache_pair` (cache.rs:56-65) in the same way -/
  | store (e : Ent) (q : QualifierQuery Q) (p : Pair E) (k : Prog E Q Ent α)

namespace Prog
variable {α β : Type}

/-- sequencing -/
def bind : Prog E Q Ent α → (α → Prog E Q Ent β) → Prog E Q Ent β
  | ret a, g => g a
  | fail e, _ => fail e
  | ask r k, g => ask r (fun x => bind (k x) g)
  | attempt r k, g => attempt r (fun x => bind (k x) g)
  | clear k, g => clear (bind k g)
  | store e q p k, g => store e q p (bind k g)

/-- code that asks nothing -/
def lift : Res α → Prog E Q Ent α
  | .ok a => ret a
  | .error e => fail e

end Prog

/-- code of the querier: what is left after the questions of streams have been answered -/
inductive CProg (E : Env) (Q Ent : Type) (α : Type) where
  | ret (a : α)
  | fail (e : Err)
  /-- look up a key under the read lock (cache.rs:73-80) -/
  | get (k : CacheKey E Q Ent) (f : Option (Buf E) → CProg E Q Ent α)
  /-- insert under the write lock (cache.rs:57-64) -/
  | put (k : CacheKey E Q Ent) (b : Buf E) (f : CProg E Q Ent α)
  /-- drop all values and empty the map, under the write lock (cache.rs:84-90) -/
  | clear (f : CProg E Q Ent α)

namespace CProg
variable {α β : Type}

/-- sequencing -/
def bind : CProg E Q Ent α → (α → CProg E Q Ent β) → CProg E Q Ent β
  | ret a, g => g a
  | fail e, _ => fail e
  | get k f, g => get k (fun o => bind (f o) g)
  | put k b f, g => put k b (bind f g)
  | clear f, g => clear (bind f g)

instance : Monad (CProg E Q Ent) where
  pure := ret
  bind := bind

/-- code that does not touch the cache -/
def lift : Res α → CProg E Q Ent α
  | .ok a => ret a
  | .error e => fail e

/-- catch panics.  Undefined behaviour and running out of stack cannot be caught.  (No access to the cache panics by
itself here; a value that panics while the lock is held is the subject of Model/Poison.lean and
Model/HostileCache.lean.) -/
def attempt : CProg E Q Ent α → CProg E Q Ent (Option α)
  | ret a => ret (some a)
  | fail .panic => ret .none
  | fail .ub => fail .ub
  | fail .fuel => fail .fuel
  | get k f => get k (fun o => attempt (f o))
  | put k b f => put k b (attempt f)
  | clear f => clear (attempt f)

/-- the outcome when nothing is ever found in the cache -/
def cold : CProg E Q Ent α → Res α
  | ret a => .ok a
  | fail e => .error e
  | get _ f => cold (f none)
  | put _ _ f => cold f
  | clear f => cold f

/-- run alone on a cache -/
def run [DecidableEq Q] [DecidableEq Ent] (A : Addr E) :
    CProg E Q Ent α → Cache E Q Ent → Res α × Cache E Q Ent
  | ret a, c => (.ok a, c)
  | fail e, c => (.error e, c)
  | get k f, c => run A (f (HMap.get (CacheKey.eq A) c k)) c
  | put k b f, c => run A f (HMap.insert (CacheKey.eq A) c k b).1
  | clear f, c =>
    match c.clear with
    | .ok c' => run A f c'
    | .error e => (.error e, c)

end CProg

/-- answers to questions, given code for each question -/
abbrev Handler (E : Env) (Q Ent : Type) := (r : Req E Q Ent) → CProg E Q Ent r.Resp

/-- `StatCache::cache_pair` (cache.rs:56-65): a clone of the value, under the stat the pair has *now*.  (The value is
cloned under the lock; that matters only to user code in `Clone`, see Model/Lock.lean.) -/
def CProg.cachePair {α : Type} (e : Ent) (q : QualifierQuery Q) (p : Pair E) (f : CProg E Q Ent α) :
    CProg E Q Ent α :=
  (CProg.lift p.cloneBuffer).bind fun b => .put ⟨e, q, p.stat⟩ b f

/-- run user code with a querier at hand -/
def Prog.interp {α : Type} (h : Handler E Q Ent) : Prog E Q Ent α → CProg E Q Ent α
  | ret a => .ret a
  | fail e => .fail e
  | ask r k => do
    let x ← h r
    interp h (k x)
  | attempt r k => do
    let x ← (h r).attempt
    interp h (k x)
  | clear k => .clear (interp h k)
  | store e q p k => .cachePair e q p (interp h k)

/-- `impl StatStream` (stream.rs:11-19): entity, query, the pair by `&mut` -/
abbrev GStream (E : Env) (Q Ent : Type) := Ent → QualifierQuery Q → Pair E → Prog E Q Ent (Pair E)

/-- A `Query<C, F>` over a `ComponentStream`/`RelationStream` together with its context:
`CxComponentStream` (stream.rs:130-181).  `query e` is the item when the entity matches; `relation` is only
used for relation streams. -/
structure CStream (E : Env) (Q Ent : Type) where
  Item : Type
  query : Ent → Option Item
  /-- `ComponentStream::stream` (stream.rs:136-144), default: nothing -/
  stream : Ent → Item → QualifierQuery Q → Pair E → Prog E Q Ent (Pair E) := fun _ _ _ p => .ret p
  /-- `ComponentStream::has_attribute` (stream.rs:146-154), default: `false` -/
  attr : Ent → Item → String → Prog E Q Ent Bool := fun _ _ _ => .ret false
  /-- `RelationStream::relation` (stream.rs:161-168) -/
  relation : Item → Item → QualifierQuery Q → Pair E → Prog E Q Ent (Pair E) := fun _ _ _ p => .ret p

/-- implementors of `QueryStream` / `QueryRelationStream`: `()`, `(A, B)`, `CxComponentStream`
(stream.rs:59-128, 183-234) -/
inductive Streams (E : Env) (Q Ent : Type) : Type 1 where
  | unit
  | pair (l r : Streams E Q Ent)
  | cx (st : CStream E Q Ent)

namespace CStream
variable (h : Handler E Q Ent) (st : CStream E Q Ent)

/-- the loop of `CxComponentStream::stream` (stream.rs:194-196); `iter_many` skips entities that do not
match -/
def streamMany (this : Ent) (q : QualifierQuery Q) : List Ent → Pair E → CProg E Q Ent (Pair E)
  | [], p => .ret p
  | e :: es, p =>
    match st.query e with
    | some it => do
      let p' ← (st.stream this it q p).interp h
      streamMany this q es p'
    | none => streamMany this q es p

/-- the loop of `CxComponentStream::has_attribute` (stream.rs:206-211) -/
def attrMany (this : Ent) (a : String) : List Ent → CProg E Q Ent Bool
  | [] => .ret false
  | e :: es =>
    match st.query e with
    | some it => do
      let b ← (st.attr this it a).interp h
      if b then .ret true else attrMany this a es
    | none => attrMany this a es

/-- `CxComponentStream::relation` (stream.rs:218-233) -/
def runRelation (this other : Ent) (q : QualifierQuery Q) (p : Pair E) : CProg E Q Ent (Pair E) :=
  match st.query this with
  | none => .ret p
  | some a =>
    match st.query other with
    | none => .ret p
    | some b => (st.relation a b q p).interp h

end CStream

namespace Streams
variable (h : Handler E Q Ent)

/-- `QueryStream::stream` (stream.rs:60-68, 76-88, 186-197) -/
def stream : Streams E Q Ent → Ent → List Ent → QualifierQuery Q → Pair E → CProg E Q Ent (Pair E)
  | unit, _, _, _, p => .ret p
  | pair l r, e, es, q, p => do
    let p' ← l.stream e es q p
    r.stream e es q p'
  | cx st, e, es, q, p => st.streamMany h e q es p

/-- `QueryStream::has_attribute` (stream.rs:70-72, 90-99, 199-212) -/
def hasAttribute : Streams E Q Ent → Ent → List Ent → String → CProg E Q Ent Bool
  | unit, _, _, _ => .ret false
  | pair l r, e, es, a => do
    let b ← l.hasAttribute e es a
    if b then .ret true else r.hasAttribute e es a
  | cx st, e, es, a => st.attrMany h e a es

/-- `QueryRelationStream::relation` (stream.rs:103-111, 117-127, 218-233) -/
def relation : Streams E Q Ent → Ent → Ent → QualifierQuery Q → Pair E → CProg E Q Ent (Pair E)
  | unit, _, _, _, p => .ret p
  | pair l r, a, b, q, p => do
    let p' ← l.relation a b q p
    r.relation a b q p'
  | cx st, a, b, q, p => st.runRelation h a b q p

end Streams

/-- What `StatQuery` gives access to (querier.rs:30-36).
* `isStat`: the entity exists and has `StatEntity`; `children`: its `Children`, if any.  The crate only
  looks at children of `StatEntity` entities (querier.rs:35).
* `cached`: a `StatCache` resource exists.
* `placeholder`: `Entity::PLACEHOLDER`. -/
structure World (E : Env) (Q Ent : Type) where
  isStat : Ent → Bool
  children : Ent → Option (List Ent)
  defaults : Option (Defaults E)
  relations : Option (List (GStream E Q Ent))
  cached : Bool
  placeholder : Ent

/-- `JoinedQuerier` (querier.rs:39-52) -/
structure Joined (E : Env) (Q Ent : Type) where
  world : World E Q Ent
  comp : Streams E Q Ent
  child : Streams E Q Ent
  rel : Streams E Q Ent

namespace World
variable (A : Addr E) (w : World E Q Ent)

/-- `StatQuery::with_component`, `with_component_cx` (querier.rs:351-364, 396-412) -/
def withComponent (st : CStream E Q Ent) : Joined E Q Ent := ⟨w, .cx st, .unit, .unit⟩
/-- `StatQuery::with_children`, `with_children_cx` (querier.rs:366-379, 414-430) -/
def withChildren (st : CStream E Q Ent) : Joined E Q Ent := ⟨w, .unit, .cx st, .unit⟩
/-- `StatQuery::with_relation`, `with_relation_cx` (querier.rs:381-394, 432-448) -/
def withRelation (st : CStream E Q Ent) : Joined E Q Ent := ⟨w, .unit, .unit, .cx st⟩

/-- `defaults.as_ref().map(|d| d.get_dyn(stat))` (querier.rs:262-266, 301-305) -/
def registered (s : StatInst E) : Res (Option (Buf E)) :=
  match w.defaults with
  | some d => do
    let b ← Defaults.getDyn A d s
    .ok (some b)
  | none => .ok none

/-- the initial value of a query (querier.rs:262-267, 301-306); the argument of `unwrap_or` is evaluated in any
case -/
def startValue (s : StatInst E) : Res (Buf E) := do
  let r ← w.registered A s
  let d ← vtDefault s.vt
  .ok (r.getD d)

end World

/-- the loop of `StatStream for GlobalStatRelations` (plugin.rs:232-234) -/
def runGlobals (h : Handler E Q Ent) (e : Ent) (q : QualifierQuery Q) :
    List (GStream E Q Ent) → Pair E → CProg E Q Ent (Pair E)
  | [], p => .ret p
  | g :: gs, p => do
    let p' ← (g e q p).interp h
    runGlobals h e q gs p'

namespace Joined
variable (A : Addr E) (J : Joined E Q Ent) (h : Handler E Q Ent)

/-- `JoinedQuerier::with_component`, `with_component_cx` (querier.rs:467-481, 518-535) -/
def withComponent (st : CStream E Q Ent) : Joined E Q Ent := { J with comp := .pair J.comp (.cx st) }
/-- `JoinedQuerier::with_children`, `with_children_cx` (querier.rs:483-497, 537-554) -/
def withChildren (st : CStream E Q Ent) : Joined E Q Ent := { J with child := .pair J.child (.cx st) }
/-- `JoinedQuerier::with_relation`, `with_relation_cx` (querier.rs:499-516, 556-573) -/
def withRelation (st : CStream E Q Ent) : Joined E Q Ent := { J with rel := .pair J.rel (.cx st) }

/-- the global relations, if the resource exists (querier.rs:269-271, 308-311) -/
def globals (e : Ent) (q : QualifierQuery Q) (p : Pair E) : CProg E Q Ent (Pair E) :=
  match J.world.relations with
  | some gs => runGlobals h e q gs p
  | none => .ret p

/-- the children streams, if the entity has children (querier.rs:276-284) -/
def children (e : Ent) (q : QualifierQuery Q) (p : Pair E) : CProg E Q Ent (Pair E) :=
  match J.world.children e with
  | some cs => J.child.stream h e cs q p
  | none => .ret p

/-- cache lookup (querier.rs:254-258, cache.rs:67-82): the found buffer is cloned -/
def lookup (e : Ent) (q : QualifierQuery Q) (s : StatInst E) : CProg E Q Ent (Option (Buf E)) :=
  if J.world.cached then .get ⟨e, q, s⟩ (fun o => .lift (Defaults.cloned s o)) else .ret none

/-- assembling the value (querier.rs:262-284) -/
def compute (e : Ent) (q : QualifierQuery Q) (s : StatInst E) : CProg E Q Ent (Pair E) := do
  let v ← CProg.lift (J.world.startValue A s)
  let p1 ← J.globals h e q ⟨s, v⟩
  let p2 ← J.comp.stream h e [e] q p1
  let p3 ← J.rel.stream h e [e] q p2
  J.children h e q p3

/-- cache insertion (querier.rs:285-287) -/
def remember (e : Ent) (q : QualifierQuery Q) (p : Pair E) : CProg E Q Ent Unit :=
  if J.world.cached then .cachePair e q p (.ret ()) else .ret ()

/-- the part of `query_stat_erased` behind the cache lookup (querier.rs:262-288) -/
def miss (e : Ent) (q : QualifierQuery Q) (s : StatInst E) : CProg E Q Ent (Option (Buf E)) := do
  let p ← J.compute A h e q s
  J.remember e q p
  .ret (some p.value)

/-- `query_stat_erased` (querier.rs:245-289) -/
def queryStatErased (e : Ent) (q : QualifierQuery Q) (s : StatInst E) : CProg E Q Ent (Option (Buf E)) :=
  if J.world.isStat e then do
    let found ← J.lookup e q s
    match found with
    | some b => .ret (some b)
    | none => J.miss A h e q s
  else .ret none

/-- `query_relation_erased` (querier.rs:291-315) -/
def queryRelationErased (a b : Ent) (q : QualifierQuery Q) (s : StatInst E) :
    CProg E Q Ent (Option (Buf E)) :=
  if J.world.isStat a && J.world.isStat b then do
    let v ← CProg.lift (J.world.startValue A s)
    let p1 ← J.globals h J.world.placeholder q ⟨s, v⟩
    let p2 ← J.rel.relation h a b q p1
    .ret (some p2.value)
  else .ret none

/-- the children part of `has_attribute_erased` (querier.rs:330-339); `entities.get(entity)` needs
`StatEntity` -/
def childAttribute (e : Ent) (a : String) : CProg E Q Ent Bool :=
  if J.world.isStat e then
    match J.world.children e with
    | some cs => J.child.hasAttribute h e cs a
    | none => .ret false
  else .ret false

/-- `has_attribute_erased` (querier.rs:317-341) -/
def hasAttributeErased (e : Ent) (a : String) : CProg E Q Ent Bool := do
  let b1 ← J.comp.hasAttribute h e [e] a
  if b1 then .ret true
  else do
    let b2 ← J.rel.hasAttribute h e [e] a
    if b2 then .ret true else J.childAttribute h e a

/-- the typed entry points `query_stat`, `query_relation`, `has_attribute` of `Querier` and `JoinedQuerier`
(querier.rs:103-127, 155-157, 164-186, 214-216) on top of the erased ones -/
def typed : Handler E Q Ent
  | .stat e q s => do
    CProg.lift (validate (E.layout s.ty))
    let o ← J.queryStatErased A h e q s
    CProg.lift (StatMap.readAs s o)
  | .relation a b q s => do
    CProg.lift (validate (E.layout s.ty))
    let o ← J.queryRelationErased A h a b q s
    CProg.lift (StatMap.readAs s o)
  | .attr e a => J.hasAttributeErased h e a

/-- the querier with recursion depth at most `n`: streams are handed `Querier(self)` (querier.rs:270-283), so
their questions are answered by the same code, one level deeper -/
def handle : Nat → Handler E Q Ent
  | 0, _ => .fail .fuel
  | n + 1, r => J.typed A (handle n) r

/-- `query_eval` (querier.rs:130-139, 189-198) -/
def queryEval (n : Nat) (e : Ent) (q : QualifierQuery Q) (s : StatInst E) :
    CProg E Q Ent (Option s.sv.Out) := do
  CProg.lift (validate (E.layout s.ty))
  let o ← J.handle A n (.stat e q s)
  CProg.lift (StatMap.evalOpt s.sv o)

/-- `query_relation_eval` (querier.rs:142-152, 201-211) -/
def queryRelationEval (n : Nat) (a b : Ent) (q : QualifierQuery Q) (s : StatInst E) :
    CProg E Q Ent (Option s.sv.Out) := do
  CProg.lift (validate (E.layout s.ty))
  let o ← J.handle A n (.relation a b q s)
  CProg.lift (StatMap.evalOpt s.sv o)

end Joined

/-- `NoopQuerier` (querier.rs:220-240) behind the typed entry points (querier.rs:103-157) -/
def noop : Handler E Q Ent
  | .stat _ _ s => do
    CProg.lift (validate (E.layout s.ty))
    CProg.lift (StatMap.readAs s none)
  | .relation _ _ _ s => do
    CProg.lift (validate (E.layout s.ty))
    CProg.lift (StatMap.readAs s none)
  | .attr _ _ => .ret false

/-- `StatStream for StatMap` (stat_map.rs:363-378) as a stream: it ignores the entity and the querier -/
def StatMap.asStream [QualifierFlag Q] (A : Addr E) (m : StatMap E Q) : GStream E Q Ent :=
  fun _ query p => Prog.lift (m.streamStat A query p)

/-- `StatMap::query_stat` (stat_map.rs:343-352) as written: the stream is run at `at_` with a querier `h`; the
crate uses `Entity::PLACEHOLDER` and the noop querier.  (`StatMap.queryStat` leaves both out.) -/
def StatMap.queryStatAt [QualifierFlag Q] (A : Addr E) (m : StatMap E Q) (h : Handler E Q Ent) (at_ : Ent)
    (query : QualifierQuery Q) (s : StatInst E) : CProg E Q Ent s.Val := do
  let p ← CProg.lift (Pair.newDefault s)
  let p' ← (m.asStream A at_ query p).interp h
  CProg.lift (p'.value.read s.ty)

/-! ### several threads -/

/-- a query in progress; `depth` only records the recursion depth it was started with -/
structure Thread (E : Env) (Q Ent : Type) where
  depth : Nat
  req : Req E Q Ent
  code : CProg E Q Ent req.Resp

/-- the shared cache and the queries in progress -/
structure Conf (E : Env) (Q Ent : Type) where
  cache : Cache E Q Ent
  threads : List (Thread E Q Ent)

/-- One step of some thread.  Each cache access happens under a lock (cache.rs:26, 57, 73-74, 85), so it is
atomic; between two accesses of one thread any number of steps of others may happen.  `start` begins a query
with an arbitrary recursion depth, `clear` is `StatCache::clear` (cache.rs:84-90) by somebody else than the queries
in progress, `wipe` and `wipeFail` are `StatCache::clear` by a stream. -/
inductive Step [DecidableEq Q] [DecidableEq Ent] (A : Addr E) (J : Joined E Q Ent) :
    Conf E Q Ent → Conf E Q Ent → Prop
  | start (c ts n r) : Step A J ⟨c, ts⟩ ⟨c, ts ++ [⟨n, r, J.handle A n r⟩]⟩
  | get (c ts i n r k f) (h : ts[i]? = some ⟨n, r, .get k f⟩) :
    Step A J ⟨c, ts⟩ ⟨c, ts.set i ⟨n, r, f (HMap.get (CacheKey.eq A) c k)⟩⟩
  | put (c ts i n r k b f) (h : ts[i]? = some ⟨n, r, .put k b f⟩) :
    Step A J ⟨c, ts⟩ ⟨(HMap.insert (CacheKey.eq A) c k b).1, ts.set i ⟨n, r, f⟩⟩
  | clear (c c' ts) (h : c.clear = .ok c') : Step A J ⟨c, ts⟩ ⟨c', ts⟩
  | wipe (c c' ts i n r f) (h : ts[i]? = some ⟨n, r, .clear f⟩) (hc : c.clear = .ok c') :
    Step A J ⟨c, ts⟩ ⟨c', ts.set i ⟨n, r, f⟩⟩
  | wipeFail (c e ts i n r f) (h : ts[i]? = some ⟨n, r, .clear f⟩) (hc : c.clear = .error e) :
    Step A J ⟨c, ts⟩ ⟨c, ts.set i ⟨n, r, .fail e⟩⟩

/-- any number of steps from an empty cache and no queries -/
inductive Reachable [DecidableEq Q] [DecidableEq Ent] (A : Addr E) (J : Joined E Q Ent) :
    Conf E Q Ent → Prop
  | init : Reachable A J ⟨[], []⟩
  | step {a b} : Reachable A J a → Step A J a b → Reachable A J b

end BSQ
