import Verif.Spec.CacheTrace
import Verif.Spec.Contents
/-!
# What queries cost

Counted in cache accesses: a stat query of a `StatEntity` begins with one lookup, and ends, if it was not answered by
the cache, with one insertion.  Used by C118.
-/
namespace BSQ
variable {E : Env} {Q Ent α : Type}

/-- the code asks at most `b` questions, whatever it is answered -/
def Prog.AtMost : Nat → Prog E Q Ent α → Prop
  | _, ret _ => True
  | _, fail _ => True
  | 0, ask _ _ => False
  | b + 1, ask _ k => ∀ x, AtMost b (k x)
  | 0, attempt _ _ => False
  | b + 1, attempt _ k => ∀ x, AtMost b (k x)
  | b, clear k => AtMost b k
  | b, store _ _ _ k => AtMost b k

/-- a question about a stat (as opposed to a relation or an attribute) -/
def Req.IsStat : Req E Q Ent → Prop
  | .stat _ _ _ => True
  | .relation _ _ _ _ => False
  | .attr _ _ => False

/-- the number of lookups -/
def lookups {K : Type} : List (HOp E K) → Nat
  | [] => 0
  | .lookup _ :: os => lookups os + 1
  | _ :: os => lookups os

/-- the keys stored under, in order -/
def storedKeys {K : Type} : List (HOp E K) → List K
  | [] => []
  | .insert k :: os => k :: storedKeys os
  | _ :: os => storedKeys os

/-- the number of lookups if nothing is ever found -/
def CProg.coldLookups : CProg E Q Ent α → Nat
  | .ret _ => 0
  | .fail _ => 0
  | .get _ f => coldLookups (f none) + 1
  | .put _ _ f => coldLookups f
  | .clear f => coldLookups f

/-- Each call made for a stat query asks at most `b` questions, all of them about stats, and catches no panics. -/
def Joined.Modest (b : Nat) (J : Joined E Q Ent) : Prop :=
  ∀ e q, ∀ c ∈ J.statCalls e q, ∀ p, (c p).AtMost b ∧ (c p).Trusts Req.IsStat

/-- the number of calls of streams made to compute the result of a key -/
def Joined.callsFor (J : Joined E Q Ent) (k : CacheKey E Q Ent) : Nat := (J.statCalls k.entity k.query).length

end BSQ
