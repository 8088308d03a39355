import Verif.Model.Cloning
import Verif.Spec.Fickle
/-!
# What queries may come to when clones differ from their originals
-/
namespace BSQ
variable {E : Env} {Q Ent : Type}

/-- a stat that was asked for may come as it is, or as the clone of a clone, having gone through the cache -/
def Outcomes.recloned (C : Cloning E) (O : Outcomes E Q Ent) : Outcomes E Q Ent
  | .stat e q s => fun x => O (.stat e q s) x ∨
      ∃ v : s.Val, O (.stat e q s) (.ok (some v)) ∧ x = .ok (some (C s.ty (C s.ty v)))
  | .relation a b q s => O (.relation a b q s)
  | .attr e a => O (.attr e a)

/-- The outcomes a request may have when it is computed, with recursion depth at most `n`: each request, nested ones
included, is served by some querier of `F`, with registered defaults cloned, and each of a stream's questions is
either computed or comes as the clone of a clone of something computed. -/
def CloneMixed (A : Addr E) (C : Cloning E) (F : Joined E Q Ent → Prop) : Nat → Outcomes E Q Ent
  | 0, _ => (· = .error .fuel)
  | n + 1, r => fun x => ∃ J, F J ∧ (J.cloning C).May A ((CloneMixed A C F n).recloned C) r x

end BSQ
