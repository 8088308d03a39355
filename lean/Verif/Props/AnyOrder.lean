import Verif.Proofs.AnyOrder
import Verif.Props.LedgerWild
/-!
# C104: the range of a stat in a map whose entries are in any order

`slice`, `slice_mut` and `remove_all` (stat_map.rs:249-260, 282-287) take the range between two partition points.
`&inner[fst..snd]` and `drain(fst..snd)` panic when `fst > snd` or `snd > len`.  A map is out of order after a caught
panic in `extend` and can be so after loading (C79).
-/
namespace BSQ
set_option linter.unusedSectionVars false
open Vec

section
variable {E : Env} {Q B : Type} [Ord Q] {A : Addr E}

/-- the bounds of the range, whatever the order of the entries -/
theorem Vec.range_any (m : Vec E Q B) (s : StatInst E) :
    (m.range A s).2 ≤ m.length ∧
      ((m.range A s).1 = (m.range A s).2 ∨ ∃ i, ∃ hi : i < m.length,
        (m.range A s).1 ≤ i ∧ i < (m.range A s).2 ∧ m[i].stat = s) := by
  refine ⟨partitionPoint_le_length _, ?_⟩
  rcases partitionPoint_two (l := m) (p := fun x => x.stat.cmp A s == .lt) (q := fun x => x.stat.cmp A s != .gt)
    (fun x hx => by
      have : x.stat.cmp A s = .lt := by simpa using hx
      simp [this]) with h | ⟨i, hi, h1, h2, h3, h4⟩
  · exact .inl h
  · refine .inr ⟨i, hi, h1, h2, ?_⟩
    apply (Std.LawfulEqCmp.compare_eq_iff_eq (cmp := StatInst.cmp A)).1
    cases hc : m[i].stat.cmp A s with
    | lt => simp [hc] at h3
    | eq => rfl
    | gt => simp [hc] at h4

/-- **C104** `slice` returns on every map, in order or not: a run of consecutive entries that is empty or contains an
entry of the stat. -/
theorem C104_slice (m : Vec E Q B) (s : StatInst E) :
    ∃ pre l post, m.slice A s = .ok l ∧ m = pre ++ (l ++ post) ∧ (l = [] ∨ ∃ e ∈ l, e.stat = s) := by
  obtain ⟨h1, h2⟩ := Vec.range_any (A := A) m s
  have h3 : (m.range A s).1 ≤ (m.range A s).2 := by
    rcases h2 with h2 | ⟨i, _, a, b, _⟩ <;> omega
  refine ⟨m.take (m.range A s).1, (m.take (m.range A s).2).drop (m.range A s).1, m.drop (m.range A s).2, ?_, ?_, ?_⟩
  · unfold Vec.slice
    simp only
    rw [if_neg (by omega)]
  · have e1 : m.take (m.range A s).1 = (m.take (m.range A s).2).take (m.range A s).1 := by
      rw [List.take_take, Nat.min_eq_left h3]
    rw [e1, ← List.append_assoc, List.take_append_drop, List.take_append_drop]
  · rcases h2 with h2 | ⟨i, hi, a, b, c⟩
    · left
      rw [h2, List.drop_eq_nil_iff, List.length_take]
      omega
    · right
      refine ⟨m[i], ?_, c⟩
      rw [List.mem_iff_getElem]
      refine ⟨i - (m.range A s).1, by simp only [List.length_drop, List.length_take]; omega, ?_⟩
      simp only [List.getElem_drop, List.getElem_take]
      congr 1
      omega

/-- **C104** `slice_mut` changes exactly the buffers of that run; it fails only if the caller's code does. -/
theorem C104_slice_mut (m : Vec E Q B) (s : StatInst E) (f : B → Res B) :
    ∃ pre l post, m.slice A s = .ok l ∧ m = pre ++ (l ++ post) ∧
      ((∃ l', m.sliceMut A s f = .ok (pre ++ (l' ++ post)) ∧ l'.length = l.length ∧
          ∀ i (h : i < l.length) (h' : i < l'.length),
            l'[i].stat = l[i].stat ∧ l'[i].qual = l[i].qual ∧ f l[i].buf = .ok l'[i].buf) ∨
        ∃ x, m.sliceMut A s f = .error x ∧ ∃ e ∈ l, f e.buf = .error x) := by
  obtain ⟨h1, h2⟩ := Vec.range_any (A := A) m s
  have h3 : (m.range A s).1 ≤ (m.range A s).2 := by
    rcases h2 with h2 | ⟨i, _, a, b, _⟩ <;> omega
  refine ⟨m.take (m.range A s).1, (m.take (m.range A s).2).drop (m.range A s).1, m.drop (m.range A s).2, ?_, ?_, ?_⟩
  · unfold Vec.slice
    simp only
    rw [if_neg (by omega)]
  · have e1 : m.take (m.range A s).1 = (m.take (m.range A s).2).take (m.range A s).1 := by
      rw [List.take_take, Nat.min_eq_left h3]
    rw [e1, ← List.append_assoc, List.take_append_drop, List.take_append_drop]
  · unfold Vec.sliceMut
    simp only
    rw [if_neg (by omega)]
    generalize (m.take (m.range A s).2).drop (m.range A s).1 = l
    have key : (∃ l', l.mapM (fun e => do
          let b ← f e.buf
          (.ok { e with buf := b } : Res (Entry E Q B))) = .ok l' ∧ l'.length = l.length ∧
          ∀ i (h : i < l.length) (h' : i < l'.length),
            l'[i].stat = l[i].stat ∧ l'[i].qual = l[i].qual ∧ f l[i].buf = .ok l'[i].buf) ∨
        ∃ x, l.mapM (fun e => do
          let b ← f e.buf
          (.ok { e with buf := b } : Res (Entry E Q B))) = .error x ∧ ∃ e ∈ l, f e.buf = .error x := by
      induction l with
      | nil => exact .inl ⟨[], rfl, rfl, fun i h => absurd h (by simp)⟩
      | cons e l ih =>
        rw [List.mapM_cons]
        cases hf : f e.buf with
        | error x => exact .inr ⟨x, rfl, e, by simp, hf⟩
        | ok b =>
          rcases ih with ⟨l', i1, i2, i3⟩ | ⟨x, i1, e', i2, i3⟩
          · left
            refine ⟨{ e with buf := b } :: l', ?_, by simp [i2], ?_⟩
            · rw [i1]; rfl
            · intro i h h'
              cases i with
              | zero => exact ⟨rfl, rfl, hf⟩
              | succ i => exact i3 i (by simpa using h) (by simpa using h')
          · right
            refine ⟨x, ?_, e', by simp [i2], i3⟩
            rw [i1]; rfl
    rcases key with ⟨l', i1, i2, i3⟩ | ⟨x, i1, i2⟩
    · left
      refine ⟨l', ?_, i2, i3⟩
      rw [i1, ← List.append_assoc]
      rfl
    · right
      refine ⟨x, ?_, i2⟩
      rw [i1]; rfl

/-- **C104** `remove_all` returns on every map: it takes out exactly that run, and the other entries stay, in the order
they had. -/
theorem C104_remove_all (m : Vec E Q B) (s : StatInst E) :
    ∃ pre l post, m.slice A s = .ok l ∧ m = pre ++ (l ++ post) ∧ m.removeAll A s = .ok (pre ++ post, l) := by
  obtain ⟨h1, h2⟩ := Vec.range_any (A := A) m s
  have h3 : (m.range A s).1 ≤ (m.range A s).2 := by
    rcases h2 with h2 | ⟨i, _, a, b, _⟩ <;> omega
  refine ⟨m.take (m.range A s).1, (m.take (m.range A s).2).drop (m.range A s).1, m.drop (m.range A s).2, ?_, ?_, ?_⟩
  · unfold Vec.slice
    simp only
    rw [if_neg (by omega)]
  · have e1 : m.take (m.range A s).1 = (m.take (m.range A s).2).take (m.range A s).1 := by
      rw [List.take_take, Nat.min_eq_left h3]
    rw [e1, ← List.append_assoc, List.take_append_drop, List.take_append_drop]
  · unfold Vec.removeAll
    simp only
    rw [if_neg (by omega)]

/-- **C104** for a stat of which the map has no entry the range is empty, so nothing can be misread -/
theorem C104_absent (m : Vec E Q B) (s : StatInst E) (h : ∀ e ∈ m, e.stat ≠ s) :
    m.slice A s = .ok [] ∧ m.removeAll A s = .ok (m, []) := by
  obtain ⟨pre, l, post, h1, h2, h3⟩ := C104_slice (A := A) m s
  obtain ⟨pre', l', post', g1, g2, g3⟩ := C104_remove_all (A := A) m s
  have hl : l = [] := by
    rcases h3 with h3 | ⟨e, he, hs⟩
    · exact h3
    · exact absurd hs (h e (by rw [h2]; simp [he]))
  subst hl
  rw [h1] at g1
  cases g1
  refine ⟨h1, ?_⟩
  rw [g3]
  simpa using g2.symm

end

/-- `demoInt` stats around the one asked for, out of order -/
def outOfOrder : Vec demo (BitVec 8) Nat :=
  [⟨demoInt 2, ⟨0, 0⟩, 10⟩, ⟨demoInt 1, ⟨0, 0⟩, 11⟩, ⟨demoInt 0, ⟨0, 0⟩, 12⟩]

example : ¬ outOfOrder.Pairwise (fun a b => a.stat.cmp demoAddr b.stat ≠ .gt) := by decide +kernel
/-- the run of a stat can contain entries of others -/
example : (outOfOrder.slice demoAddr (demoInt 1)).map (List.map (·.buf)) = .ok [10, 11, 12] := by decide +kernel

/-- **C104** entries of the stat can lie outside of its run: `iter` shows none and `remove_all` removes none, though
there is one. -/
theorem C104_missed :
    (∃ e ∈ outOfOrder, e.stat = demoInt 2) ∧ outOfOrder.slice demoAddr (demoInt 2) = .ok [] ∧
      outOfOrder.removeAll demoAddr (demoInt 2) = .ok (outOfOrder, []) := by
  refine ⟨⟨_, List.mem_cons_self, rfl⟩, ?_, ?_⟩
  · rfl
  · rfl

end BSQ
