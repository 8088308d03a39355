import Verif.Spec.Querier
/-!
# Queries whose streams do not do the same each time

Streams get their state by shared reference (`&self`, `cx: &<Self::Cx as SystemParam>::Item`, stream.rs:12-18, 136-154),
but that does not keep them from behaving differently from call to call: they may hold atomics or locks, roll dice or
look at the clock.  And a world may change between two queries without the cache being cleared.  In Model/Querier.lean
a querier `Joined` has one behaviour.  Here there is a set `F` of queriers, and each request, nested ones included, is
served by a member of it, which one is not determined; `F` may contain all combinations of behaviours of the streams.
(In one request a stream may be called for several entities.  A member of `F` can treat each differently, since its
`Item`s may contain the entity.)

The code of a request is then one of a set.  What follows is the code of querier.rs:103-127, 245-341 as in
Model/Querier.lean, written with the flat lists of calls (`callsCode`, `anyCode`; that this is the same as the nested
loops is proved in Proofs/Querier.lean), and with each question of a stream answered by some code for it.
`C124_fixed` shows that for a set of one querier this is the code of Model/Querier.lean.
-/
namespace BSQ
variable {E : Env} {Q Ent α β : Type}

/-- for each question, the code that may answer it -/
abbrev Codes (E : Env) (Q Ent : Type) := (r : Req E Q Ent) → CProg E Q Ent r.Resp → Prop

/-- user code with a querier at hand (`Prog.interp`, Model/Querier.lean), each of its questions being answered by
code out of `H`; the same question may be answered by different code the next time it is asked -/
def Prog.Becomes (H : Codes E Q Ent) : Prog E Q Ent α → CProg E Q Ent α → Prop
  | ret a, c => c = .ret a
  | fail e, c => c = .fail e
  | ask r k, c => ∃ d g, H r d ∧ (∀ x, (k x).Becomes H (g x)) ∧ c = d.bind g
  | attempt r k, c => ∃ d g, H r d ∧ (∀ x, (k x).Becomes H (g x)) ∧ c = d.attempt.bind g
  | clear k, c => ∃ d, k.Becomes H d ∧ c = .clear d
  | store e q p k, c => ∃ d, k.Becomes H d ∧ c = .cachePair e q p d

/-- calls one after another (`callsCode`): the loops of stream.rs:75-88, 186-197 and querier.rs:262-284 -/
def CallsBecome (H : Codes E Q Ent) : List (Call E Q Ent) → Pair E → CProg E Q Ent (Pair E) → Prop
  | [], p, c => c = .ret p
  | f :: fs, p, c => ∃ d g, (f p).Becomes H d ∧ (∀ p', CallsBecome H fs p' (g p')) ∧ c = d.bind g

/-- yes/no questions until one is answered yes (`anyCode`): stream.rs:90-99, 199-212, querier.rs:317-341 -/
def AnyBecomes (H : Codes E Q Ent) : List (Prog E Q Ent Bool) → CProg E Q Ent Bool → Prop
  | [], c => c = .ret false
  | f :: fs, c => ∃ d g, f.Becomes H d ∧ AnyBecomes H fs g ∧ c = d.bind fun b => if b then .ret true else g

namespace Joined
variable (A : Addr E) (J : Joined E Q Ent)

/-- `query_stat` (querier.rs:103-112, 164-173, 245-289) around the code `calls` that passes the start value through
all sources -/
def statCode (e : Ent) (q : QualifierQuery Q) (s : StatInst E) (calls : Buf E → CProg E Q Ent (Pair E)) :
    CProg E Q Ent (Option s.Val) :=
  (CProg.lift (validate (E.layout s.ty))).bind fun _ =>
    (if J.world.isStat e then
      (J.lookup e q s).bind fun found =>
        match found with
        | some b => .ret (some b)
        | none => ((CProg.lift (J.world.startValue A s)).bind calls).bind fun p =>
            (J.remember e q p).bind fun _ => .ret (some p.value)
    else .ret none).bind fun o => CProg.lift (StatMap.readAs s o)

/-- `query_relation` (querier.rs:115-127, 175-186, 291-315) -/
def relationCode (a b : Ent) (s : StatInst E) (calls : Buf E → CProg E Q Ent (Pair E)) :
    CProg E Q Ent (Option s.Val) :=
  (CProg.lift (validate (E.layout s.ty))).bind fun _ =>
    (if J.world.isStat a && J.world.isStat b then
      (CProg.lift (J.world.startValue A s)).bind fun v => (calls v).bind fun p => .ret (some p.value)
    else .ret none).bind fun o => CProg.lift (StatMap.readAs s o)

/-- the code that a request to `J` may come to, when the questions of streams are answered by code out of `H` -/
def Becomes (H : Codes E Q Ent) : Codes E Q Ent
  | .stat e q s, c =>
    ∃ g, (∀ v, CallsBecome H (J.statCalls e q) ⟨s, v⟩ (g v)) ∧ c = J.statCode A e q s g
  | .relation a b q s, c =>
    ∃ g, (∀ v, CallsBecome H (J.relationCalls a b q) ⟨s, v⟩ (g v)) ∧ c = J.relationCode A a b s g
  | .attr e a, c => AnyBecomes H (J.attrCalls e a) c

end Joined

/-- the code that a request may come to, with recursion depth at most `n`, each request being served by some querier
of `F` -/
def MayRun (A : Addr E) (F : Joined E Q Ent → Prop) : Nat → Codes E Q Ent
  | 0, _, c => c = .fail .fuel
  | n + 1, r, c => ∃ J, F J ∧ J.Becomes A (MayRun A F n) r c

/-- One step of some thread, as `Step` of Model/Querier.lean (cache.rs:26, 56-90), when each request is served by
some querier of `F`. -/
inductive FStep [DecidableEq Q] [DecidableEq Ent] (A : Addr E) (F : Joined E Q Ent → Prop) :
    Conf E Q Ent → Conf E Q Ent → Prop
  | start (c ts n r code) (h : MayRun A F n r code) : FStep A F ⟨c, ts⟩ ⟨c, ts ++ [⟨n, r, code⟩]⟩
  | get (c ts i n r k f) (h : ts[i]? = some ⟨n, r, .get k f⟩) :
    FStep A F ⟨c, ts⟩ ⟨c, ts.set i ⟨n, r, f (HMap.get (CacheKey.eq A) c k)⟩⟩
  | put (c ts i n r k b f) (h : ts[i]? = some ⟨n, r, .put k b f⟩) :
    FStep A F ⟨c, ts⟩ ⟨(HMap.insert (CacheKey.eq A) c k b).1, ts.set i ⟨n, r, f⟩⟩
  | clear (c c' ts) (h : c.clear = .ok c') : FStep A F ⟨c, ts⟩ ⟨c', ts⟩
  | wipe (c c' ts i n r f) (h : ts[i]? = some ⟨n, r, .clear f⟩) (hc : c.clear = .ok c') :
    FStep A F ⟨c, ts⟩ ⟨c', ts.set i ⟨n, r, f⟩⟩
  | wipeFail (c e ts i n r f) (h : ts[i]? = some ⟨n, r, .clear f⟩) (hc : c.clear = .error e) :
    FStep A F ⟨c, ts⟩ ⟨c, ts.set i ⟨n, r, .fail e⟩⟩

/-- any number of steps from an empty cache and no queries -/
inductive FReachable [DecidableEq Q] [DecidableEq Ent] (A : Addr E) (F : Joined E Q Ent → Prop) :
    Conf E Q Ent → Prop
  | init : FReachable A F ⟨[], []⟩
  | step {a b} : FReachable A F a → FStep A F a b → FReachable A F b

end BSQ
