import Verif.Spec.MapQuery
/-!
# Changing one entry of one map
-/
namespace BSQ
variable {E : Env} {Q Ent : Type} [BitFlags Q] [Ord Q] {A : Addr E}

/-- what is found at a place under a key: nothing if there is no map -/
def foundAt (x : MapComp (Q := Q) A Ent × Ent) (k : Key E Q) : Option k.Val :=
  if (x.1.map x.2).isSome then x.1.stored x.2 k else none

/-- the places hold the same values of the stat `s` under qualifiers that match the query -/
def SameAt [FlagSet Q] {A' : Addr E} {Ent' : Type} (q : QualifierQuery Q) (s : StatInst E)
    (x : MapComp (Q := Q) A Ent × Ent) (y : MapComp (Q := Q) A' Ent' × Ent') : Prop :=
  ∀ k, FlagSpec.Matches k q → foundAt x ⟨s, k⟩ = foundAt y ⟨s, k⟩

/-- the keys at which a call may change what is stored -/
def MapOp.Touches : MapOp E Q → Key E Q → Prop
  | .insert q s _, k | .insertBase q s _, k | .modify q s _, k | .modifyWith q s _, k | .getMut q s _, k
  | .remove q s, k => k = ⟨s, q⟩
  | .iterMut s _, k | .removeAll s, k => k.stat = s
  | .clear, _ => True

/-- `c'` is `c` after the call `o` was made on the map of the entity `e` -/
structure Edited (o : MapOp E Q) (e : Ent) (c c' : MapComp (Q := Q) A Ent) : Prop where
  others : ∀ e', e' ≠ e → c'.map e' = c.map e'
  here : ∃ m m', c.map e = some m ∧ StatMap.step A m o = .ok m' ∧ c'.map e = some m'

/-- A query of `J` (about which `own` and `items` tell where the maps are) joins some values, and that of `J'` joins
the same values in the same order with `w` put in somewhere, at every recursion depth. -/
def OneMore [FlagSet Q] (J J' : Joined E Q Ent) (own items : List (MapComp (Q := Q) A Ent)) (e : Ent)
    (q : QualifierQuery Q) (s : StatInst E) (v w : s.Val) : Prop :=
  ∃ a b : List s.Val,
    (∀ Ls, List.Forall₂ (MatchesAt q s) (mapPlaces J own items e) Ls → (Ls.flatten.map (·.2)).Perm (a ++ b)) ∧
    ∀ n, J.answer A (n + 1) (.stat e q s) = (joinList s.sv v (a ++ b) >>= fun x => .ok (some x)) ∧
      J'.answer A (n + 1) (.stat e q s) = (joinList s.sv v (a ++ w :: b) >>= fun x => .ok (some x))

end BSQ
