import Verif.Spec.Misread
import Verif.Props.Repair
/-!
# C106: what is read from a map out of order

The run found for a stat (C104) can contain entries of other stats.  They are read as entries of the stat asked for.
-/
set_option linter.unusedSectionVars false
namespace BSQ
variable {E : Env} {Q : Type} [DecidableEq Q] [Ord Q] [Std.TransOrd Q] [Std.LawfulEqOrd Q] {A : Addr E}

namespace Keyed

theorem hasVal_of_ty {s : StatInst E} {x : Keyed E Q} (h : x.1.stat.ty = s.ty) : ∃ v, HasVal s x v :=
  ⟨cast (congrArg E.El h) x.2, Sigma.ext h (cast_heq _ _).symm⟩

theorem HasVal.ty {s : StatInst E} {x : Keyed E Q} {v : s.Val} (h : HasVal s x v) : x.1.stat.ty = s.ty :=
  congrArg Sigma.fst h

theorem HasVal.buf {s : StatInst E} {x : Keyed E Q} {v : s.Val} (h : HasVal s x v) :
    (Buf.val x.1.stat.ty x.2 : Buf E) = .val s.ty v :=
  congrArg (fun p : (u : E.U) × E.El u => Buf.val p.1 p.2) h

theorem get_other {s : StatInst E} {x : Keyed E Q} (h : x.1.stat.ty ≠ s.ty) :
    (Buf.val x.1.stat.ty x.2 : Buf E).get s.ty = .error .ub := by
  unfold Buf.get
  simp [h]

theorem read_other {s : StatInst E} (hs : Storable (E.layout s.ty)) {x : Keyed E Q} (h : x.1.stat.ty ≠ s.ty) :
    (Buf.val x.1.stat.ty x.2 : Buf E).read s.ty = .error .ub := by
  unfold Buf.read
  rw [validate_eq, if_pos hs]
  exact get_other h

end Keyed

/-- up to the first entry with another value type -/
theorem ReadAs.cases (s : StatInst E) (l : List (Keyed E Q)) :
    (∃ P, ReadAs s l P) ∨
    ∃ a x b P, l = a ++ x :: b ∧ ReadAs s a P ∧ x.1.stat.ty ≠ s.ty := by
  induction l with
  | nil => exact .inl ⟨[], .nil⟩
  | cons x l ih =>
    by_cases h : x.1.stat.ty = s.ty
    · obtain ⟨v, hv⟩ := Keyed.hasVal_of_ty h
      rcases ih with ⟨P, hP⟩ | ⟨a, y, b, P, rfl, h1, h2⟩
      · exact .inl ⟨(x.1.qual, v) :: P, .cons ⟨rfl, hv⟩ hP⟩
      · exact .inr ⟨x :: a, y, b, (x.1.qual, v) :: P, rfl, .cons ⟨rfl, hv⟩ h1, h2⟩
    · exact .inr ⟨[], x, l, [], rfl, .nil, h⟩

theorem ReadAs.filter [QualifierFlag Q] {s : StatInst E} {l : List (Keyed E Q)} {P : List (Qualifier Q × s.Val)}
    (h : ReadAs s l P) (query : QualifierQuery Q) :
    ReadAs s (l.filter fun x => x.1.qual.qualifiesAs query) (P.filter fun p => p.1.qualifiesAs query) := by
  induction h with
  | nil => exact .nil
  | @cons x p l P h _ ih =>
    rw [List.filter_cons, List.filter_cons, h.1]
    split
    · exact .cons h ih
    · exact ih

/-- reading a run -/
theorem mapM_read {s : StatInst E} (hs : Storable (E.layout s.ty)) {l : List (Keyed E Q)}
    {P : List (Qualifier Q × s.Val)} (h : ReadAs s l P) :
    (l.map Keyed.entry).mapM (fun e => do
      let v ← e.buf.read s.ty
      (.ok (e.qual, v) : Res (Qualifier Q × s.Val))) = .ok P := by
  induction h with
  | nil => rfl
  | @cons x p l P h _ ih =>
    rw [List.map_cons, List.mapM_cons, ih]
    have : (Keyed.entry x).buf.read s.ty = .ok p.2 := by
      change (Buf.val x.1.stat.ty x.2 : Buf E).read s.ty = _
      rw [h.2.buf, Buf.read_val hs]
    rw [this]
    change Except.ok ((x.1.qual, p.2) :: P) = _
    rw [h.1]

theorem mapM_read_other {s : StatInst E} (hs : Storable (E.layout s.ty)) {a b : List (Keyed E Q)} {x : Keyed E Q}
    {P : List (Qualifier Q × s.Val)} (h : ReadAs s a P) (hx : x.1.stat.ty ≠ s.ty) :
    ((a ++ x :: b).map Keyed.entry).mapM (fun e => do
      let v ← e.buf.read s.ty
      (.ok (e.qual, v) : Res (Qualifier Q × s.Val))) = .error .ub := by
  rw [List.map_append, List.mapM_append, mapM_read hs h, List.map_cons, List.mapM_cons]
  have : (Keyed.entry x).buf.read s.ty = .error .ub := Keyed.read_other hs hx
  rw [this]
  rfl

/-- joining a run that is read in full -/
theorem joinEntries_read [QualifierFlag Q] {s : StatInst E} (hs : Storable (E.layout s.ty)) (query : QualifierQuery Q)
    {l : List (Keyed E Q)} {P : List (Qualifier Q × s.Val)}
    (h : ReadAs s (l.filter fun x => x.1.qual.qualifiesAs query) P) (v : s.Val) (rest : List (Entry E Q (Buf E))) :
    StatMap.joinEntries s.vt query (l.map Keyed.entry ++ rest) (.val s.ty v) =
      (joinList s.sv v (P.map (·.2)) >>= fun z => StatMap.joinEntries s.vt query rest (.val s.ty z)) := by
  induction l generalizing v P with
  | nil => cases h; rfl
  | cons x l ih =>
    rw [List.filter_cons] at h
    rw [List.map_cons, List.cons_append, StatMap.joinEntries]
    split at h
    · rename_i hq
      rw [if_pos (show (Keyed.entry x).qual.qualifiesAs query = true from hq)]
      cases h with
      | @cons _ p _ P h1 h2 =>
        have hj : vtJoin s.vt (.val s.ty v) (Keyed.entry x).buf =
            (s.sv.join v p.2 >>= fun z => .ok (.val s.ty z)) := by
          change vtJoin s.vt (.val s.ty v) (Buf.val x.1.stat.ty x.2) = _
          rw [h1.2.buf]
          unfold vtJoin
          rw [validate_eq, if_pos hs]
          simp [Buf.get]
        rw [hj, List.map_cons, joinList]
        cases hz : s.sv.join v p.2 with
        | error e => rfl
        | ok z =>
          simp only [Res.bind_ok]
          exact ih h2 z
    · rename_i hq
      rw [if_neg (show ¬ (Keyed.entry x).qual.qualifiesAs query = true from hq)]
      exact ih h v

theorem joinEntries_other [QualifierFlag Q] {s : StatInst E} (hs : Storable (E.layout s.ty))
    (query : QualifierQuery Q) {x : Keyed E Q} (hx : x.1.stat.ty ≠ s.ty) (v : s.Val)
    (l b : List (Keyed E Q)) (hl : l.filter (fun x => x.1.qual.qualifiesAs query) = x :: b) :
    StatMap.joinEntries s.vt query (l.map Keyed.entry) (.val s.ty v) = .error .ub := by
  induction l with
  | nil => cases hl
  | cons y l ih =>
    rw [List.filter_cons] at hl
    rw [List.map_cons, StatMap.joinEntries]
    split at hl
    · rename_i hq
      cases hl
      rw [if_pos (show (Keyed.entry x).qual.qualifiesAs query = true from hq)]
      have : vtJoin s.vt (.val s.ty v) (Keyed.entry x).buf = .error .ub := by
        change vtJoin s.vt (.val s.ty v) (Buf.val x.1.stat.ty x.2) = _
        unfold vtJoin
        rw [validate_eq, if_pos hs]
        rw [Keyed.get_other hx]
        simp [Buf.get]
      rw [this]; rfl
    · rename_i hq
      rw [if_neg (show ¬ (Keyed.entry y).qual.qualifiesAs query = true from hq)]
      exact ih hl

/-- **C106** What `iter` and queries read of a map in any order.  There is one run of entries, empty or with an entry of
the stat among them, such that
* `iter` gives all entries of the run, those of other stats included, if all have the value type of the stat, and
  misreads memory otherwise;
* a query joins the entries of the run that qualify, up to the first that has another value type, if there is one,
  which it misreads. -/
theorem C106_reads [QualifierFlag Q] (m : StatMap E Q) (l : List (Keyed E Q)) (h : m.Lists l) (s : StatInst E) :
    ∃ pre run post, l = pre ++ (run ++ post) ∧ (run = [] ∨ ∃ x ∈ run, x.1.stat = s) ∧
      ((∃ P, ReadAs s run P ∧ StatMap.iter A m s = .ok P) ∨
        (∃ x ∈ run, x.1.stat.ty ≠ s.ty) ∧ StatMap.iter A m s = .error .ub) ∧
      (Storable (E.layout s.ty) → ∀ query,
        (∃ P, ReadAs s (run.filter fun x => x.1.qual.qualifiesAs query) P ∧
          StatMap.queryStat A m query s = joinList s.sv s.sv.default (P.map (·.2))) ∨
        ∃ a x b P, (run.filter fun x => x.1.qual.qualifiesAs query) = a ++ x :: b ∧ ReadAs s a P ∧
          x.1.stat.ty ≠ s.ty ∧
          StatMap.queryStat A m query s = (joinList s.sv s.sv.default (P.map (·.2)) >>= fun _ => .error .ub)) := by
  obtain ⟨rfl, hst⟩ := h
  change ∃ pre run post, l = pre ++ (run ++ post) ∧ (run = [] ∨ ∃ x ∈ run, x.1.stat = s) ∧
      ((∃ P, ReadAs s run P ∧ StatMap.iter A (l.map Keyed.entry) s = .ok P) ∨
        (∃ x ∈ run, x.1.stat.ty ≠ s.ty) ∧ StatMap.iter A (l.map Keyed.entry) s = .error .ub) ∧
      (Storable (E.layout s.ty) → ∀ query,
        (∃ P, ReadAs s (run.filter fun x => x.1.qual.qualifiesAs query) P ∧
          StatMap.queryStat A (l.map Keyed.entry) query s = joinList s.sv s.sv.default (P.map (·.2))) ∨
        ∃ a x b P, (run.filter fun x => x.1.qual.qualifiesAs query) = a ++ x :: b ∧ ReadAs s a P ∧
          x.1.stat.ty ≠ s.ty ∧ StatMap.queryStat A (l.map Keyed.entry) query s =
            (joinList s.sv s.sv.default (P.map (·.2)) >>= fun _ => .error .ub))
  obtain ⟨pre, r, post, h1, h2, h3⟩ := C104_slice (A := A) (l.map Keyed.entry) s
  obtain ⟨pre, rest, rfl, rfl, hrest⟩ := List.map_eq_append_iff.1 h2
  obtain ⟨run, post, rfl, rfl, rfl⟩ := List.map_eq_append_iff.1 hrest
  have hrun : run = [] ∨ ∃ x ∈ run, x.1.stat = s := by
    rcases h3 with h3 | ⟨e, he, hs⟩
    · exact .inl (List.map_eq_nil_iff.1 h3)
    · obtain ⟨x, hx, rfl⟩ := List.mem_map.1 he
      exact .inr ⟨x, hx, hs⟩
  have hstor : run ≠ [] → Storable (E.layout s.ty) := by
    intro hne
    rcases hrun with h | ⟨x, hx, rfl⟩
    · exact absurd h hne
    · exact hst x (by simp [hx])
  refine ⟨pre, run, post, rfl, hrun, ?_, fun hs query => ?_⟩
  · unfold StatMap.iter
    rw [h1]
    simp only [Res.bind_ok]
    rcases ReadAs.cases s run with ⟨P, hP⟩ | ⟨a, x, b, P, hab, hP, hx⟩
    · left
      refine ⟨P, hP, ?_⟩
      by_cases hne : run = []
      · subst hne; cases hP; rfl
      · exact mapM_read (hstor hne) hP
    · right
      refine ⟨⟨x, by rw [hab]; simp, hx⟩, ?_⟩
      have := hstor (by rw [hab]; simp)
      rw [hab]
      exact mapM_read_other this hP hx
  · unfold StatMap.queryStat Pair.newDefault Pair.new StatMap.streamStat
    rw [Buf.from_eq, if_pos hs]
    simp only [Res.bind_ok, h1]
    rcases ReadAs.cases s (run.filter fun x => x.1.qual.qualifiesAs query) with ⟨P, hP⟩ | ⟨a, x, b, P, hab, hP, hx⟩
    · left
      refine ⟨P, hP, ?_⟩
      have := joinEntries_read hs query hP s.sv.default []
      rw [List.append_nil] at this
      rw [this]
      cases joinList s.sv s.sv.default (P.map (·.2)) with
      | error e => rfl
      | ok z =>
        simp only [Res.bind_ok, StatMap.joinEntries]
        exact Buf.read_val hs z
    · right
      refine ⟨a, x, b, P, hab, hP, hx, ?_⟩
      obtain ⟨r1, r2, rfl, hr1, hr2⟩ := List.filter_eq_append_iff.1 hab
      have := joinEntries_read hs query (l := r1) (by rw [hr1]; exact hP) s.sv.default (r2.map Keyed.entry)
      rw [← List.map_append] at this
      rw [this]
      cases joinList s.sv s.sv.default (P.map (·.2)) with
      | error e => rfl
      | ok z =>
        simp only [Res.bind_ok]
        rw [joinEntries_other hs query hx z r2 b hr2]
        rfl

/-- running the caller's code on a run -/
theorem mapM_change {s : StatInst E} (f : s.Val → Res s.Val) {l : List (Keyed E Q)}
    (hs : l ≠ [] → Storable (E.layout s.ty)) :
    (∃ l', (l.map Keyed.entry).mapM (fun e => do
        let b ← (do
          let v ← e.buf.read s.ty
          let v' ← f v
          (.ok (.val s.ty v') : Res (Buf E)))
        (.ok { e with buf := b } : Res (Entry E Q (Buf E)))) = .ok (l'.map Keyed.entry) ∧
      List.Forall₂ (Keyed.ChangedBy s f) l l') ∨
    ∃ e, (l.map Keyed.entry).mapM (fun e => do
        let b ← (do
          let v ← e.buf.read s.ty
          let v' ← f v
          (.ok (.val s.ty v') : Res (Buf E)))
        (.ok { e with buf := b } : Res (Entry E Q (Buf E)))) = .error e ∧
      ∃ x ∈ l, (x.1.stat.ty ≠ s.ty ∧ e = .ub) ∨ ∃ v, x.HasVal s v ∧ f v = .error e := by
  induction l with
  | nil => exact .inl ⟨[], rfl, .nil⟩
  | cons x l ih =>
    have hs := hs (by simp)
    rw [List.map_cons, List.mapM_cons]
    by_cases hx : x.1.stat.ty = s.ty
    · obtain ⟨v, hv⟩ := Keyed.hasVal_of_ty hx
      have hr : (Keyed.entry x).buf.read s.ty = .ok v := by
        change (Buf.val x.1.stat.ty x.2 : Buf E).read s.ty = _
        rw [hv.buf, Buf.read_val hs]
      rw [hr]
      simp only [Res.bind_ok]
      cases hf : f v with
      | error e => exact .inr ⟨e, rfl, x, by simp, .inr ⟨v, hv, hf⟩⟩
      | ok v' =>
        simp only [Res.bind_ok]
        have hx' : Keyed.HasVal s (⟨x.1, cast (congrArg E.El hx.symm) v'⟩ : Keyed E Q) v' :=
          Sigma.ext hx (cast_heq _ _)
        rcases ih (fun _ => hs) with ⟨l', h1, h2⟩ | ⟨e, h1, y, hy, h2⟩
        · left
          refine ⟨⟨x.1, cast (congrArg E.El hx.symm) v'⟩ :: l', ?_, .cons ⟨rfl, v, v', hv, hf, hx'⟩ h2⟩
          rw [h1]
          simp only [Res.bind_ok, List.map_cons]
          have : Keyed.entry (⟨x.1, cast (congrArg E.El hx.symm) v'⟩ : Keyed E Q) =
              { Keyed.entry x with buf := .val s.ty v' } := by
            unfold Keyed.entry
            rw [hx'.buf]
          rw [this]
          rfl
        · right
          refine ⟨e, ?_, y, by simp [hy], h2⟩
          rw [h1]; rfl
    · right
      refine ⟨.ub, ?_, x, by simp, .inl ⟨hx, rfl⟩⟩
      have : (Keyed.entry x).buf.read s.ty = .error .ub := Keyed.read_other hs hx
      rw [this]; rfl

/-- **C106** `iter_mut` on a map in any order runs the caller's code on the values of the run, those of other stats
included, and changes nothing else; it fails if the caller's code does, or by misreading an entry of another value
type. -/
theorem C106_iter_mut (m : StatMap E Q) (l : List (Keyed E Q)) (h : m.Lists l) (s : StatInst E)
    (f : s.Val → Res s.Val) :
    ∃ pre run post, l = pre ++ (run ++ post) ∧ (run = [] ∨ ∃ x ∈ run, x.1.stat = s) ∧
      ((∃ m' run', StatMap.iterMut A m s f = .ok m' ∧ m'.Lists (pre ++ (run' ++ post)) ∧
          List.Forall₂ (Keyed.ChangedBy s f) run run') ∨
        ∃ e, StatMap.iterMut A m s f = .error e ∧
          ∃ x ∈ run, (x.1.stat.ty ≠ s.ty ∧ e = .ub) ∨ ∃ v, x.HasVal s v ∧ f v = .error e) := by
  obtain ⟨rfl, hst⟩ := h
  change ∃ pre run post, l = pre ++ (run ++ post) ∧ (run = [] ∨ ∃ x ∈ run, x.1.stat = s) ∧
      ((∃ m' run', StatMap.iterMut A (l.map Keyed.entry) s f = .ok m' ∧ m'.Lists (pre ++ (run' ++ post)) ∧
          List.Forall₂ (Keyed.ChangedBy s f) run run') ∨
        ∃ e, StatMap.iterMut A (l.map Keyed.entry) s f = .error e ∧
          ∃ x ∈ run, (x.1.stat.ty ≠ s.ty ∧ e = .ub) ∨ ∃ v, x.HasVal s v ∧ f v = .error e)
  obtain ⟨h1, h2⟩ := Vec.range_any (A := A) (l.map Keyed.entry) s
  have h3 : (Vec.range A (l.map Keyed.entry) s).1 ≤ (Vec.range A (l.map Keyed.entry) s).2 := by
    rcases h2 with h2 | ⟨i, _, a, b, _⟩ <;> omega
  generalize hr : Vec.range A (l.map Keyed.entry) s = r at h1 h2 h3
  have hrun : ((l.take r.2).drop r.1) = [] ∨ ∃ x ∈ (l.take r.2).drop r.1, x.1.stat = s := by
    rcases h2 with h2 | ⟨i, hi, a, b, c⟩
    · left
      rw [h2, List.drop_eq_nil_iff, List.length_take]
      omega
    · right
      rw [List.length_map] at hi
      refine ⟨l[i], ?_, by rw [List.getElem_map] at c; exact c⟩
      rw [List.mem_iff_getElem]
      refine ⟨i - r.1, by simp only [List.length_drop, List.length_take]; omega, ?_⟩
      simp only [List.getElem_drop, List.getElem_take]
      congr 1
      omega
  have hl : l = l.take r.1 ++ ((l.take r.2).drop r.1 ++ l.drop r.2) := by
    have e1 : l.take r.1 = (l.take r.2).take r.1 := by rw [List.take_take, Nat.min_eq_left h3]
    rw [e1, ← List.append_assoc, List.take_append_drop, List.take_append_drop]
  refine ⟨l.take r.1, (l.take r.2).drop r.1, l.drop r.2, hl, hrun, ?_⟩
  unfold StatMap.iterMut Vec.sliceMut
  simp only [hr]
  rw [if_neg (by omega), ← List.map_take, ← List.map_drop, ← List.map_take, ← List.map_drop]
  have hsub : ∀ x ∈ (l.take r.2).drop r.1, x ∈ l := fun x hx => List.mem_of_mem_take (List.mem_of_mem_drop hx)
  rcases mapM_change f (l := (l.take r.2).drop r.1) (by
      intro hne
      rcases hrun with h | ⟨x, hx, rfl⟩
      · exact absurd h hne
      · exact hst x (hsub x hx)) with ⟨run', g1, g2⟩ | ⟨e, g1, g2⟩
  · left
    refine ⟨(l.take r.1 ++ (run' ++ l.drop r.2)).map Keyed.entry, run', ?_, ?_, g2⟩
    rotate_left
    · refine ⟨rfl, fun x hx => ?_⟩
      rcases List.mem_append.1 hx with hx | hx
      · exact hst x (List.mem_of_mem_take hx)
      · rcases List.mem_append.1 hx with hx | hx
        · obtain ⟨i, hi, rfl⟩ := List.mem_iff_getElem.1 hx
          have := (List.forall₂_iff_get.1 g2)
          have hi' : i < ((l.take r.2).drop r.1).length := by rw [this.1]; exact hi
          have hk := (this.2 i hi' hi).1
          have := hst _ (hsub _ (List.getElem_mem hi'))
          simp only [List.get_eq_getElem] at hk
          rw [← hk]
          exact this
        · exact hst x (List.mem_of_mem_drop hx)
    · rw [g1]
      simp only [Res.bind_ok, List.map_append, List.append_assoc]
  · right
    refine ⟨e, ?_, g2⟩
    rw [g1]; rfl

/-- **C106** If all entries of a map have one value type, nothing is misread, in whatever order they are: `iter` returns,
queries and `iter_mut` fail only where joins or the caller's code do. -/
theorem C106_one_type [QualifierFlag Q] (m : StatMap E Q) (l : List (Keyed E Q)) (h : m.Lists l) (s : StatInst E)
    (ht : ∀ x ∈ l, x.1.stat.ty = s.ty) :
    (∃ P, StatMap.iter A m s = .ok P) ∧
    ((∀ v w, s.sv.join v w ≠ .error .ub) → ∀ query : QualifierQuery Q,
      StatMap.queryStat A m query s ≠ .error .ub) ∧
    ∀ f : s.Val → Res s.Val, (∀ v, f v ≠ .error .ub) → StatMap.iterMut A m s f ≠ .error .ub := by
  have hjoin : ∀ (hj : ∀ v w, s.sv.join v w ≠ .error .ub) (L : List s.Val) (v : s.Val),
      joinList s.sv v L ≠ .error .ub := by
    intro hj L
    induction L with
    | nil => intro v h; cases h
    | cons w L ih =>
      intro v
      unfold joinList
      cases hz : s.sv.join v w with
      | error e =>
        intro h
        cases h
        exact hj _ _ hz
      | ok z => exact ih z
  obtain ⟨pre, run, post, rfl, -, hi, hq⟩ := C106_reads (A := A) m l h s
  have ht' : ∀ x ∈ run, x.1.stat.ty = s.ty := fun x hx => ht x (by simp [hx])
  refine ⟨?_, fun hj query => ?_, fun f hf => ?_⟩
  · rcases hi with ⟨P, -, h⟩ | ⟨⟨x, hx, h⟩, -⟩
    · exact ⟨P, h⟩
    · exact absurd (ht' x hx) h
  · by_cases hs : Storable (E.layout s.ty)
    · rcases hq hs query with ⟨P, -, h⟩ | ⟨a, x, b, P, h1, -, h2, -⟩
      · rw [h]; exact hjoin hj _ _
      · have : x ∈ run.filter fun x => x.1.qual.qualifiesAs query := by rw [h1]; simp
        exact absurd (ht' x (List.mem_filter.1 this).1) h2
    · unfold StatMap.queryStat Pair.newDefault Pair.new
      rw [Buf.from_eq, if_neg hs]
      intro h; cases h
  · obtain ⟨pre', run', post', h1, -, h2⟩ := C106_iter_mut (A := A) m _ h s f
    rcases h2 with ⟨m', r, h2, -⟩ | ⟨e, h2, x, hx, h3⟩
    · rw [h2]; intro h; cases h
    · rw [h2]
      rintro h
      cases h
      rcases h3 with ⟨h3, -⟩ | ⟨v, -, h3⟩
      · exact h3 (ht x (by rw [h1]; simp [hx]))
      · exact hf v h3

/-- **C106** Two value types are enough for the converse: of two stats with different value types, a map with one entry
each and the greater stat first, as an interrupted `extend` leaves it, misreads memory when iterating over the lesser. -/
theorem C106_two_types (s t : StatInst E) (q r : Qualifier Q) (v : s.Val) (w : t.Val)
    (hs : Storable (E.layout s.ty)) (ht : Storable (E.layout t.ty)) (hne : s.ty ≠ t.ty) (hlt : s.cmp A t = .lt) :
    ∃ m : StatMap E Q, ReachedUnordered A m ∧
      m = [⟨t, r, .val t.ty w⟩, ⟨s, q, .val s.ty v⟩] ∧ StatMap.iter A m s = .error .ub := by
  have hgt : t.cmp A s = .gt := Std.OrientedCmp.gt_of_lt hlt
  have hself : s.cmp A s = .eq := Std.ReflCmp.compare_self
  have hin : StatMap.multiStep A (StatMap.new : StatMap E Q) (.one (.insert r t w)) = .ok [⟨t, r, .val t.ty w⟩] := by
    change StatMap.insert A _ r t w = _
    unfold StatMap.insert
    rw [Buf.from_eq, if_pos ht]
    rfl
  refine ⟨_, .extend _ _ (.ret _ _ (.one (.insert r t w)) trivial .new hin)
    s.vt [(q, s.index, v)] (.mk _ [⟨s, q, .val s.ty v⟩] ?_), rfl, ?_⟩
  · rw [BRep.entries, if_pos (.inr hs)]
    rfl
  · have hr : Vec.slice A ([⟨t, r, .val t.ty w⟩, ⟨s, q, .val s.ty v⟩] : StatMap E Q) s =
        .ok [⟨t, r, .val t.ty w⟩, ⟨s, q, .val s.ty v⟩] := by
      simp [Vec.slice, Vec.range, partitionPoint, binarySearchBy, bsLoop, hgt, hself]
    unfold StatMap.iter
    change (Vec.slice A ([⟨t, r, .val t.ty w⟩, ⟨s, q, .val s.ty v⟩] : StatMap E Q) s >>= fun l => _) = _
    rw [hr]
    exact mapM_read_other hs (a := []) (P := []) (x := ⟨⟨t, r⟩, w⟩) (b := [⟨⟨s, q⟩, v⟩]) .nil (fun h => hne h.symm)

example : ∃ m : StatMap demo (BitVec 8), ReachedUnordered demoAddr m ∧ StatMap.iter demoAddr m (demoInt 0) = .error .ub :=
  let ⟨m, h1, _, h2⟩ := C106_two_types (demoInt 0) (demoFlag 0) (⟨0, 0⟩ : Qualifier (BitVec 8)) ⟨0, 0⟩ ⟨6, 0, 9, 1⟩
    ⟨0, 5⟩ (by decide) (by decide) (by decide) rfl
  ⟨m, h1, h2⟩

/-- three stats with one value type, out of order -/
def mixedUp : StatMap demo (BitVec 8) :=
  [⟨demoInt 2, ⟨0, 0⟩, .val true ⟨1, 0, 100, 1⟩⟩, ⟨demoInt 1, ⟨0, 0⟩, .val true ⟨2, 0, 100, 1⟩⟩,
    ⟨demoInt 0, ⟨0, 0⟩, .val true ⟨4, 0, 100, 1⟩⟩]

/-- C106 is not empty -/
example : StatMap.Lists mixedUp [⟨⟨demoInt 2, ⟨0, 0⟩⟩, ⟨1, 0, 100, 1⟩⟩, ⟨⟨demoInt 1, ⟨0, 0⟩⟩, ⟨2, 0, 100, 1⟩⟩,
    ⟨⟨demoInt 0, ⟨0, 0⟩⟩, ⟨4, 0, 100, 1⟩⟩] :=
  ⟨rfl, by
    intro x hx
    simp only [List.mem_cons, List.not_mem_nil, or_false] at hx
    rcases hx with rfl | rfl | rfl <;> decide⟩

/-- **C106** Values of other stats are joined: the map holds 2 for the stat, a query gives 7, and `iter` shows three
entries. -/
theorem C106_others_joined :
    ReachedUnordered demoAddr mixedUp ∧
    (mixedUp.filter fun e => decide (e.stat = demoInt 1)) = [⟨demoInt 1, ⟨0, 0⟩, .val true ⟨2, 0, 100, 1⟩⟩] ∧
    StatMap.evalStat demoAddr mixedUp QualifierQuery.none (demoInt 1) = .ok (7 : Int) ∧
    (StatMap.iter demoAddr mixedUp (demoInt 1)).map List.length = .ok 3 :=
  ⟨.extend (E := demo) [] _ .new true [(⟨0, 0⟩, (2 : Nat), ⟨1, 0, 100, 1⟩), (⟨0, 0⟩, (1 : Nat), ⟨2, 0, 100, 1⟩),
    (⟨0, 0⟩, (0 : Nat), ⟨4, 0, 100, 1⟩)] (.mk _ _ rfl), rfl, rfl, rfl⟩

end BSQ
