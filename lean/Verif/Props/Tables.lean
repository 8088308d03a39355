import Verif.Model.Tables
import Verif.Props.StatMap
import Verif.Props.Cast
/-!
# C69: a stat type with several vtables: logical errors, no misread value
-/
set_option linter.unusedSectionVars false
namespace BSQ
variable {P : Env} (t : Tables P) (A : Addr t.env)

/-- **C69** Whatever tables `Stat::vtable` returned when a pair was built and when it is cast, a cast sees a value
only if the stat types agree, and then the value and stat that were put in. -/
theorem C69_cast {S T : P.S} (v w : t.V) (hv : t.of v = S) (hw : t.of w = T) (i : Nat) (x : P.El (P.valTy (t.of v)))
    (r : P.Sel (t.of w) × P.El (P.valTy (t.of w)))
    (hr : (Pair.typed (E := t.env) ⟨v, i⟩ x).cast A w = .ok (some r)) :
    S = T ∧ P.fromIndex (t.of w) i = .ok r.1 ∧ HEq r.2 x := by
  by_cases hT : Storable (P.statLayout (t.of w))
  · by_cases h : w = v
    · subst h
      have h1 := (C36_cast_partial A (⟨w, i⟩ : StatInst t.env) x w hT).1 rfl
      rw [hr] at h1
      have h2 := h1.symm
      simp only [Res.bind_eq_ok] at h2
      obtain ⟨y, hy, h3⟩ := h2
      cases h3
      exact ⟨hv.symm.trans hw, hy, HEq.rfl⟩
    · rw [(C36_cast_partial A (⟨v, i⟩ : StatInst t.env) x w hT).2 h] at hr
      cases hr
  · rw [(C36_refuted_big_stat (E := t.env) A _ w r.1 hT).1] at hr
    cases hr

/-- **C69** No cast through any table misreads a value. -/
theorem C69_cast_never_misreads (v w : t.V) (i : Nat) (x : P.El (P.valTy (t.of v)))
    (hf : ∀ T i, P.fromIndex T i ≠ .error .ub) (y : P.Sel (t.of w)) :
    (Pair.typed (E := t.env) ⟨v, i⟩ x).cast A w ≠ .error .ub ∧
    (Pair.typed (E := t.env) ⟨v, i⟩ x).isThenCast A (T := w) y ≠ .error .ub ∧
    (Pair.typed (E := t.env) ⟨v, i⟩ x).intoResult A w ≠ .error .ub :=
  C36_never_misread (E := t.env) A _ ⟨x, rfl⟩ w y (hf _ _)

section map
variable {Q : Type} [DecidableEq Q] [Ord Q] [Std.TransOrd Q] [Std.LawfulEqOrd Q]

/-- **C69** A map filled and read through any tables never gives a value of another type: what is found was put in
through the same table. -/
theorem C69_map (h : List (MapOp t.env Q)) (m : StatMap t.env Q) (hm : StatMap.run A h = .ok m)
    (q : Qualifier Q) (w : t.V) (i : Nat) : StatMap.get A m q (⟨w, i⟩ : StatInst t.env) ≠ .error .ub := by
  obtain ⟨a, _, r⟩ := reachRep A hm
  rw [r.get]
  simp
end map

section all
variable {Q : Type} [BitFlags Q] [FlagSet Q] [Ord Q] [Std.TransOrd Q] [Std.LawfulEqOrd Q]

/-- **C69** No history of map calls through any tables misreads a value, and neither does any reading method on what
it leaves. -/
theorem C69_map_safe (hP : P.NoUb) (h : List (MapOp t.env Q)) (hh : ∀ o ∈ h, o.NoUb) :
    StatMap.run A h ≠ .error .ub ∧ ∀ m, StatMap.run A h = .ok m →
      ∀ (q : Qualifier Q) (query : QualifierQuery Q) (w : t.V) (i : Nat),
        StatMap.get A m q (⟨w, i⟩ : StatInst t.env) ≠ .error .ub ∧
        StatMap.getEvaled A m q (⟨w, i⟩ : StatInst t.env) ≠ .error .ub ∧
        StatMap.iter A m (⟨w, i⟩ : StatInst t.env) ≠ .error .ub ∧
        StatMap.remove A m q (⟨w, i⟩ : StatInst t.env) ≠ .error .ub ∧
        StatMap.queryStat A m query (⟨w, i⟩ : StatInst t.env) ≠ .error .ub ∧
        StatMap.evalStat A m query (⟨w, i⟩ : StatInst t.env) ≠ .error .ub :=
  have hE : t.env.NoUb := ⟨hP.write, hP.join, hP.eval⟩
  ⟨C35_no_misread A hE h hh, fun m hm q query _ _ => C35_no_misread_observers A hE h m hm q query _⟩
end all

/-- the demo program with two tables for each of its stat types -/
abbrev twoTables : Tables demo where
  V := Bool × Bool
  of := Prod.fst

/-- both tables of the integer stats first -/
def twoAddr : Addr twoTables.env where
  at_ v := 1000 + 2 * v.1.toNat + v.2.toNat
  inj {a b} h := by
    obtain ⟨a1, a2⟩ := a
    obtain ⟨b1, b2⟩ := b
    revert h
    cases a1 <;> cases a2 <;> cases b1 <;> cases b2 <;> simp

/-- **C69** The logical errors exist: a value stored for a stat through one table is not found through the other,
a pair does not cast to its own stat type, and the map holds two entries for one stat. -/
theorem C69_logical_errors :
    ∃ m, StatMap.run twoAddr [.insert (⟨0, 0⟩ : Qualifier (BitVec 8)) ⟨(true, false), 0⟩ (⟨7, 0, 10, 1⟩ : StatInt),
        .insert ⟨0, 0⟩ ⟨(true, true), 0⟩ (⟨8, 0, 10, 1⟩ : StatInt)] = .ok m ∧ List.length m = 2 ∧
      StatMap.get twoAddr m ⟨0, 0⟩ ⟨(true, false), 0⟩ = .ok (some (⟨7, 0, 10, 1⟩ : StatInt)) ∧
      StatMap.get twoAddr m ⟨0, 0⟩ ⟨(true, true), 0⟩ = .ok (some (⟨8, 0, 10, 1⟩ : StatInt)) ∧
      (Pair.typed (E := twoTables.env) ⟨(true, false), 0⟩ (⟨7, 0, 10, 1⟩ : StatInt)).cast twoAddr (true, true) =
        .ok none := ⟨_, rfl, rfl, rfl, rfl, rfl⟩

/-- and a successful cast, for `C69_cast` -/
example : (Pair.typed (E := twoTables.env) ⟨(true, true), 4⟩ (⟨7, 0, 10, 1⟩ : StatInt)).cast twoAddr (true, true) =
    .ok (some ((4 : Nat), (⟨7, 0, 10, 1⟩ : StatInt))) := rfl

/-- the demonstration program meets the hypothesis of `C69_map_safe`; values stored through one table of a stat type are
not found through the other -/
example : demo.NoUb ∧ ∃ m, StatMap.run twoAddr (Q := BitVec 8) [.insert ⟨0, 0⟩ (⟨(true, false), 4⟩ : StatInst twoTables.env)
      (⟨7, 0, 10, 1⟩ : StatInt)] = .ok m ∧
    StatMap.get twoAddr m ⟨0, 0⟩ (⟨(true, true), 4⟩ : StatInst twoTables.env) = .ok none ∧
    StatMap.getEvaled twoAddr m ⟨0, 0⟩ (⟨(true, false), 4⟩ : StatInst twoTables.env) = .ok (some (7 : Int)) :=
  ⟨demo_noUb, _, rfl, rfl, rfl⟩

end BSQ
