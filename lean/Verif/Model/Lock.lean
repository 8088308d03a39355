import Verif.Model.Querier
/-!
# The lock of the cache  (src/cache.rs)

`Model/Querier` takes each cache access of a query for one step.  Here accesses are taken apart into acquiring a
guard of the `RwLock`, running user code under it, looking at the map or changing it, and releasing the guard, each
of which may be interleaved with steps of other threads.

`RwLock` (std): a write guard excludes all other guards, a read guard excludes write guards.  Whether a thread that
asks for a read guard has to wait for a thread that is waiting for a write guard is left to the platform: the flag
`strict`.  A thread that asks for a guard while it holds one waits for itself if they exclude each other.

Not modelled: panics under a guard (`Model/Poison`).
-/
namespace BSQ

/-- what a thread does with the lock and the data `S` it protects -/
inductive LProg (S α : Type) where
  | ret (x : α)
  | acquire (write : Bool) (k : LProg S α)
  /-- the guard acquired last goes -/
  | release (k : LProg S α)
  | load (f : S → LProg S α)
  | store (f : S → S) (k : LProg S α)
  /-- some work that has nothing to do with the lock -/
  | pause (k : LProg S α)

/-- first `p`, then `k` -/
def LProg.andThen {S α : Type} : LProg S Unit → LProg S α → LProg S α
  | .ret _, k => k
  | .acquire w p, k => .acquire w (p.andThen k)
  | .release p, k => .release (p.andThen k)
  | .load f, k => .load fun s => (f s).andThen k
  | .store f p, k => .store f (p.andThen k)
  | .pause p, k => .pause (p.andThen k)

variable {E : Env} {Q Ent : Type}

/-- what the lock protects: the map, and how many of the values in it have been dropped already (which nobody
should see) -/
structure Shared (E : Env) (Q Ent : Type) where
  map : Cache E Q Ent
  dropped : Nat

/-- what `Clone`, `Drop` and `Debug` of the values do besides their job: they take time, and they might use the
cache -/
structure UserCode (E : Env) (Q Ent : Type) where
  clone : CacheKey E Q Ent → Buf E → LProg (Shared E Q Ent) Unit
  drop : CacheKey E Q Ent → Buf E → LProg (Shared E Q Ent) Unit
  debug : CacheKey E Q Ent → Buf E → LProg (Shared E Q Ent) Unit

/-- what a thread was started for; `depth` is that of the query -/
inductive Task (E : Env) (Q Ent : Type) where
  | query (depth : Nat) (r : Req E Q Ent)
  | clear
  | debug

def Task.Out : Task E Q Ent → Type
  | .query _ r => Res r.Resp
  | .clear => Unit
  | .debug => Unit

/-- a thread with the guards it holds, the last one acquired first -/
structure LThread (E : Env) (Q Ent : Type) where
  task : Task E Q Ent
  code : LProg (Shared E Q Ent) task.Out
  guards : List Bool

structure LConf (E : Env) (Q Ent : Type) where
  cache : Shared E Q Ent
  threads : List (LThread E Q Ent)

/-- may a guard be given out? -/
def LConf.Grants (strict : Bool) (s : LConf E Q Ent) (write : Bool) : Prop :=
  if write then ∀ t ∈ s.threads, t.guards = []
  else (∀ t ∈ s.threads, true ∉ t.guards) ∧
    (strict = true → ∀ t ∈ s.threads, ∀ k, t.code ≠ .acquire true k)

/-- one step of one of the threads -/
inductive LRun (strict : Bool) : LConf E Q Ent → LConf E Q Ent → Prop
  | acquire (c l r t w k g) (h : LConf.Grants strict ⟨c, l ++ ⟨t, .acquire w k, g⟩ :: r⟩ w) :
    LRun strict ⟨c, l ++ ⟨t, .acquire w k, g⟩ :: r⟩ ⟨c, l ++ ⟨t, k, w :: g⟩ :: r⟩
  | release (c l r t k w g) :
    LRun strict ⟨c, l ++ ⟨t, .release k, w :: g⟩ :: r⟩ ⟨c, l ++ ⟨t, k, g⟩ :: r⟩
  | load (c l r t f g) :
    LRun strict ⟨c, l ++ ⟨t, .load f, g⟩ :: r⟩ ⟨c, l ++ ⟨t, f c, g⟩ :: r⟩
  | store (c l r t f k g) :
    LRun strict ⟨c, l ++ ⟨t, .store f k, g⟩ :: r⟩ ⟨f c, l ++ ⟨t, k, g⟩ :: r⟩
  | pause (c l r t k g) :
    LRun strict ⟨c, l ++ ⟨t, .pause k, g⟩ :: r⟩ ⟨c, l ++ ⟨t, k, g⟩ :: r⟩

variable [DecidableEq Q] [DecidableEq Ent]

/-- user code for each entry in turn (the order does not matter here) -/
def LProg.forEach {S α : Type} {K V : Type} (p : K → V → LProg S Unit) (l : List (K × V)) (k : LProg S α) :
    LProg S α :=
  l.foldr (fun e k => (p e.1 e.2).andThen k) k

/-- `drop_buffer` of an entry (cache.rs:87) -/
def dropEntry (u : UserCode E Q Ent) (k : CacheKey E Q Ent) (b : Buf E) : LProg (Shared E Q Ent) Unit :=
  (u.drop k b).andThen <| .store (fun c => { c with dropped := c.dropped + 1 }) <| .ret ()

/-- `StatCache::clear` (cache.rs:84-90), then `k` -/
def clearThen (u : UserCode E Q Ent) {α : Type} (k : LProg (Shared E Q Ent) α) : LProg (Shared E Q Ent) α :=
  .acquire true <| .load fun c => .forEach (dropEntry u) c.map <| .store (fun _ => ⟨[], 0⟩) <| .release k

/-- The code of a query.  `try_get_cached_dyn` (cache.rs:67-82): the read guard is a temporary, so it is held while
the value is cloned.  `cache_pair` (cache.rs:56-65): the write guard is taken before the arguments of `insert`
(lines 57-64) are evaluated, one of which is the clone.  `clear` is the one of a stream. -/
def CProg.locked (A : Addr E) (u : UserCode E Q Ent) {α : Type} :
    CProg E Q Ent α → LProg (Shared E Q Ent) (Res α)
  | .ret x => .ret (.ok x)
  | .fail x => .ret (.error x)
  | .get k f => .acquire false <| .load fun c =>
      (match HMap.get (CacheKey.eq A) c.map k with
        | some b => u.clone k b
        | none => .ret ()).andThen <| .release ((f (HMap.get (CacheKey.eq A) c.map k)).locked A u)
  | .put k b f => .acquire true <| (u.clone k b).andThen <|
      .store (fun c => { c with map := (HMap.insert (CacheKey.eq A) c.map k b).1 }) <| .release (f.locked A u)
  | .clear f => clearThen u (f.locked A u)

/-- `StatCache::clear` (cache.rs:84-90) -/
def clearLocked (u : UserCode E Q Ent) : LProg (Shared E Q Ent) Unit :=
  clearThen u (.ret ())

/-- `Debug` of the cache (cache.rs:29-41) -/
def debugLocked (u : UserCode E Q Ent) : LProg (Shared E Q Ent) Unit :=
  .acquire false <| .load fun c => .forEach u.debug c.map <| .release <| .ret ()

/-- the code of a task -/
def Task.code (A : Addr E) (u : UserCode E Q Ent) (J : Joined E Q Ent) :
    (t : Task E Q Ent) → LProg (Shared E Q Ent) t.Out
  | .query n r => (J.handle A n r).locked A u
  | .clear => clearLocked u
  | .debug => debugLocked u

/-- a step of one of the threads, or a thread is started -/
inductive LStep (strict : Bool) (A : Addr E) (u : UserCode E Q Ent) (J : Joined E Q Ent) :
    LConf E Q Ent → LConf E Q Ent → Prop
  | run {s s'} (h : LRun strict s s') : LStep strict A u J s s'
  | start (c ts t) : LStep strict A u J ⟨c, ts⟩ ⟨c, ts ++ [⟨t, t.code A u J, []⟩]⟩

/-- any number of steps from an empty cache and no threads -/
inductive LReachable (strict : Bool) (A : Addr E) (u : UserCode E Q Ent) (J : Joined E Q Ent) :
    LConf E Q Ent → Prop
  | init : LReachable strict A u J ⟨⟨[], 0⟩, []⟩
  | step {s s'} : LReachable strict A u J s → LStep strict A u J s s' → LReachable strict A u J s'

end BSQ
