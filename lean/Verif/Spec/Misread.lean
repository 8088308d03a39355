import Verif.Spec.Repair
/-!
# What reading a run of entries at one value type gives
-/
namespace BSQ
variable {E : Env} {Q : Type}

/-- the vector consists of these keyed values, in this order -/
def StatMap.Lists (m : StatMap E Q) (l : List (Keyed E Q)) : Prop :=
  m = l.map (fun x => ⟨x.1.stat, x.1.qual, .val x.1.stat.ty x.2⟩) ∧ ∀ x ∈ l, Storable (E.layout x.1.stat.ty)

/-- the value of the entry, whichever its stat, is `v` of the value type of `s` -/
def Keyed.HasVal (s : StatInst E) (x : Keyed E Q) (v : s.Val) : Prop :=
  (⟨x.1.stat.ty, x.2⟩ : (u : E.U) × E.El u) = ⟨s.ty, v⟩

/-- the entries, read as entries of `s` -/
def ReadAs (s : StatInst E) (l : List (Keyed E Q)) (P : List (Qualifier Q × s.Val)) : Prop :=
  List.Forall₂ (fun x p => x.1.qual = p.1 ∧ x.HasVal s p.2) l P

/-- the same entry with its value changed by `f` -/
def Keyed.ChangedBy (s : StatInst E) (f : s.Val → Res s.Val) (x x' : Keyed E Q) : Prop :=
  x.1 = x'.1 ∧ ∃ v v', x.HasVal s v ∧ f v = .ok v' ∧ x'.HasVal s v'

end BSQ
