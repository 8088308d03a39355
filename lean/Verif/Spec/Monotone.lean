import Verif.Spec.Unordered
import Verif.Model.Ieee
/-!
# Ordering floats, and assemblies that differ by extra operations
-/
namespace BSQ

/-- `a ≤ b` of floats: `-∞` below all, `+∞` above all, NaN comparable with nothing -/
def Fl.Le : Fl → Fl → Prop
  | .nan, _ => False
  | _, .nan => False
  | .ninf, _ => True
  | _, .pinf => True
  | .fin a, .fin b => a ≤ b
  | _, _ => False

/-- `t'` is `t` with extra operations satisfying `B` put in at any places: applied to any intermediate value,
or gathered in a separate value (from the default or a base value satisfying `B`) which is joined in. -/
inductive Tree.Extra {V : Type} {D : StatValue V} (B : StatOp D → Prop) : Tree D → Tree D → Prop
  | dflt : Extra B .dflt .dflt
  | base (b : D.BaseT) : Extra B (.base b) (.base b)
  | op {t t' : Tree D} (o : StatOp D) : Extra B t t' → Extra B (.op t o) (.op t' o)
  | join {l l' r r' : Tree D} : Extra B l l' → Extra B r r' → Extra B (.join l r) (.join l' r')
  | extra {t t' : Tree D} (o : StatOp D) : Extra B t t' → B o → Extra B t (.op t' o)
  | extraBase (b : D.BaseT) : B (.base b) → Extra B .dflt (.base b)
  | extraJoin {t t' r : Tree D} : Extra B t t' → Extra B .dflt r → Extra B t (.join t' r)

end BSQ
