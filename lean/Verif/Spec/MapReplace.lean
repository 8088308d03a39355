import Verif.Spec.MapLocal
/-!
# Changing the value of one entry of one map
-/
namespace BSQ
variable {E : Env} {Q Ent : Type} [BitFlags Q] [Ord Q] {A : Addr E}

/-- A query of `J` (about which `own` and `items` tell where the maps are) joins some values, with `w` among them, and
that of `J'` joins the same values in the same order with `w'` in the place of `w`, at every recursion depth. -/
def OneOther [FlagSet Q] (J J' : Joined E Q Ent) (own items : List (MapComp (Q := Q) A Ent)) (e : Ent)
    (q : QualifierQuery Q) (s : StatInst E) (v w w' : s.Val) : Prop :=
  ∃ a b : List s.Val,
    (∀ Ls, List.Forall₂ (MatchesAt q s) (mapPlaces J own items e) Ls → (Ls.flatten.map (·.2)).Perm (w :: (a ++ b))) ∧
    ∀ n, J.answer A (n + 1) (.stat e q s) = (joinList s.sv v (a ++ w :: b) >>= fun x => .ok (some x)) ∧
      J'.answer A (n + 1) (.stat e q s) = (joinList s.sv v (a ++ w' :: b) >>= fun x => .ok (some x))

/-- the call may change what is stored under one key only -/
def MapOp.Only (o : MapOp E Q) (k : Key E Q) : Prop := ∀ k', o.Touches k' → k' = k

end BSQ
