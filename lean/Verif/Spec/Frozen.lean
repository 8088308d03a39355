import Verif.Spec.Querier
/-!
# Queries when some results are fixed

What a request comes to, without a cache, if the results of some stat queries are given and everything else is computed.
-/
namespace BSQ
variable {E : Env} {Q Ent : Type}

/-- The outcome of a request with recursion depth at most `n`, if the stat queries in `f` have the results given there
(as far as the entity is a `StatEntity`), and all others pass the start value through all calls, whose questions are
answered in the same way. -/
def Joined.fixed (A : Addr E) (J : Joined E Q Ent) (f : (k : CacheKey E Q Ent) → Option k.stat.Val) :
    Nat → Oracle E Q Ent
  | 0, _ => .error .fuel
  | n + 1, .stat e q s =>
    match (if J.world.isStat e then f ⟨e, q, s⟩ else none : Option s.Val) with
    | some v => .ok (some v)
    | none => J.ideal A (J.fixed A f n) (.stat e q s)
  | n + 1, .relation a b q s => J.ideal A (J.fixed A f n) (.relation a b q s)
  | n + 1, .attr e a => J.ideal A (J.fixed A f n) (.attr e a)

/-- the results that a cache holds -/
def Cache.Holds [DecidableEq Q] [DecidableEq Ent] (A : Addr E) (c : Cache E Q Ent)
    (f : (k : CacheKey E Q Ent) → Option k.stat.Val) : Prop :=
  ∀ k, HMap.get (CacheKey.eq A) c k = (f k).map (Buf.val k.stat.ty)

/-- `res` is the outcome that the family has from some depth on; it is that at depth `n` unless this runs out -/
def SettlesAt {α : Type} (X : Nat → Res α) (n : Nat) (res : Res α) : Prop :=
  (X n ≠ .error .fuel → res = X n) ∧ (res ≠ .error .fuel → ∃ m, X m = res)

/-- any number of steps of any number of threads that query, from the cache `c₀`, none of which empties the cache -/
inductive UnclearedReach [DecidableEq Q] [DecidableEq Ent] (A : Addr E) (J : Joined E Q Ent) (c₀ : Cache E Q Ent) :
    Conf E Q Ent → Prop
  | init : UnclearedReach A J c₀ ⟨c₀, []⟩
  | step {a b} : UnclearedReach A J c₀ a → Step A J a b → (b.cache = [] → a.cache = []) → UnclearedReach A J c₀ b

end BSQ
