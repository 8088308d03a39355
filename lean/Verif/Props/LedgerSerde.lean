import Verif.Spec.LedgerSerde
import Verif.Props.Ledger
import Verif.Props.Serde
/-!
# C77: values while loading
-/
set_option linter.unusedSectionVars false
namespace BSQ
variable {E : Env} {Q : Type} {X : Serde E Q} {sc : DeScope E}

/-- an entry without its value -/
def Entry.shape {B : Type} (e : Entry E Q B) : StatInst E × Qualifier Q := (e.stat, e.qual)

theorem Serde.ownEntry_books {h : Heap E.U} {O : List (Cell × E.U)} (b : Books h O) (d : Data) :
    (∃ h' e e', X.ownEntry sc h d = (h', .ok (some e)) ∧ X.deEntry sc d = .ok (some e') ∧ e.shape = e'.shape ∧
      Books h' ((e.buf, e.stat.ty) :: O) ∧ ¬ Spoiled X sc d) ∨
    ((∀ e', X.deEntry sc d ≠ .ok (some e')) ∧ ∃ h' lost o, X.ownEntry sc h d = (h', o) ∧ (∀ e, o ≠ .ok (some e)) ∧
      Books h' (lost ++ O) ∧ ((Spoiled X sc d ∧ lost.length = 1) ∨ (¬ Spoiled X sc d ∧ lost = []))) := by
  have bad : ∀ o : Res (Option (Entry E Q Cell)), X.ownEntry sc h d = (h, o) → (∀ e, o ≠ .ok (some e)) →
      (∀ e', X.deEntry sc d ≠ .ok (some e')) → ¬ Spoiled X sc d →
      ((∀ e', X.deEntry sc d ≠ .ok (some e')) ∧ ∃ h' lost o, X.ownEntry sc h d = (h', o) ∧
      (∀ e, o ≠ .ok (some e)) ∧
      Books h' (lost ++ O) ∧ ((Spoiled X sc d ∧ lost.length = 1) ∨ (¬ Spoiled X sc d ∧ lost = []))) :=
    fun o h1 h2 h3 h4 => ⟨h3, h, [], o, h1, h2, b, .inr ⟨h4, rfl⟩⟩
  have other : (∀ l, d ≠ .seq l) → (∃ h' e e', X.ownEntry sc h d = (h', .ok (some e)) ∧ X.deEntry sc d = .ok (some e') ∧
      e.shape = e'.shape ∧ Books h' ((e.buf, e.stat.ty) :: O) ∧ ¬ Spoiled X sc d) ∨
      ((∀ e', X.deEntry sc d ≠ .ok (some e')) ∧ ∃ h' lost o, X.ownEntry sc h d = (h', o) ∧ (∀ e, o ≠ .ok (some e)) ∧
      Books h' (lost ++ O) ∧ ((Spoiled X sc d ∧ lost.length = 1) ∨ (¬ Spoiled X sc d ∧ lost = []))) := by
    intro hn
    refine .inr (bad (.ok none) ?_ (by simp) ?_ ?_)
    · cases d <;> first | rfl | exact absurd rfl (hn _)
    · cases d <;> first | (simp [Serde.deEntry]; done) | exact absurd rfl (hn _)
    · rintro ⟨_, dq, n, dv, ex, rest, _, _, _, _, rfl, _⟩
      exact hn _ rfl
  cases d with
  | seq l =>
    clear other
    match l with
    | [] => exact .inr (bad _ rfl (by simp) (by simp [Serde.deEntry]) (by simp [Spoiled]))
    | [d] =>
      refine .inr (bad _ rfl (by simp) ?_ (by simp [Spoiled]))
      intro e'
      simp only [Serde.deEntry]
      cases X.deQ d <;> simp [Serde.deSecond]
    | d :: d' :: rest =>
      cases hq : X.deQ d with
      | none =>
        refine .inr (bad (.ok none) (by simp [Serde.ownEntry, hq]) (by simp) (by simp [Serde.deEntry, hq]) ?_)
        rintro ⟨_, dq, n, dv, ex, rest', q, r, st, v, hd, h1, _⟩
        cases hd
        rw [hq] at h1; cases h1
      | some q =>
        cases hs : Serde.deStat sc d' with
        | error e =>
          refine .inr (bad (.error e) (by simp [Serde.ownEntry, hq, hs]) (by simp)
            (by simp [Serde.deEntry, hq, Serde.deSecond, hs]) ?_)
          rintro ⟨_, dq, n, dv, ex, rest', q, r, st, v, hd, h1, h2, h3, _⟩
          cases hd
          subst h2
          simp [Serde.deStat] at hs
        | ok os =>
          cases os with
          | none =>
            refine .inr (bad (.ok none) (by simp [Serde.ownEntry, hq, hs]) (by simp)
              (by simp [Serde.deEntry, hq, Serde.deSecond, hs]) ?_)
            rintro ⟨_, dq, n, dv, ex, rest', q, r, st, v, hd, h1, h2, h3, _⟩
            cases hd
            subst h2
            simp [Serde.deStat, h3] at hs
          | some s =>
            obtain ⟨n, r, rfl, rfl, hr⟩ : ∃ n r, d' = .str n ∧ sc = .registry r ∧ r n = some s := by
              unfold Serde.deStat at hs
              cases d' <;> simp only at hs <;> try cases hs
              rename_i n
              cases sc <;> simp only at hs <;> try cases hs
              rename_i r
              exact ⟨n, r, rfl, rfl, Except.ok.inj hs⟩
            match rest with
            | [] =>
              exact .inr (bad (.ok none) (by simp [Serde.ownEntry, hq, hs, Serde.ownThird]) (by simp)
                (by simp [Serde.deEntry, hq, Serde.deSecond, hs, Serde.deThird]) (by simp [Spoiled]))
            | dv :: rest =>
              have hsp : ∀ P : Prop, (Spoiled X (.registry r) (.seq (d :: .str n :: dv :: rest)) → X.supported s.vt = true →
                  Storable (E.layout s.ty) → (∃ v, X.de s.ty dv = some v) → P) →
                  Spoiled X (.registry r) (.seq (d :: .str n :: dv :: rest)) → P := by
                intro P hP hS
                have hS' := hS
                obtain ⟨_, dq, n', dv', ex, rest', q', r', st, v, hd, h1, h2, h3, h4, h5, h6⟩ := hS
                cases hd
                cases h2
                rw [hr] at h3
                cases h3
                exact hP hS' h4 h5 ⟨v, h6⟩
              by_cases hsup : X.supported s.vt = true
              · by_cases hst : Storable (E.layout s.ty)
                · have hv : validate (E.layout s.ty) = .ok () := by rw [validate_eq]; simp [hst]
                  cases hde : X.de s.ty dv with
                  | none =>
                    refine .inr (bad (.ok none)
                      (by simp [Serde.ownEntry, hq, hs, Serde.ownThird, Serde.ownValue, hsup, hv, hde]) (by simp)
                      (by simp [Serde.deEntry, hq, Serde.deSecond, hs, Serde.deThird, Serde.deValue, hsup, hv, hde]) ?_)
                    exact hsp _ (fun _ _ _ hh => by obtain ⟨v, hv'⟩ := hh; rw [hde] at hv'; cases hv')
                  | some v =>
                    have hb : Buf.from_ s.ty v = .ok (.val s.ty v) := by rw [Buf.from_eq]; simp [hst]
                    rcases b.alloc s.ty with ⟨_, h', x, h1, h2⟩ | ⟨hn, _⟩
                    · have e1 : X.ownEntry (.registry r) h (.seq (d :: .str n :: dv :: rest)) = (h',
                          if X.fmt.strictEnd && !rest.isEmpty then .ok none else .ok (some ⟨s, q, x⟩)) := by
                        simp [Serde.ownEntry, hq, hs, Serde.ownThird, Serde.ownValue, hsup, hv, hde, h1]
                      have e2 : X.deEntry (.registry r) (.seq (d :: .str n :: dv :: rest)) =
                          if X.fmt.strictEnd && !rest.isEmpty then .ok none else .ok (some ⟨s, q, .val s.ty v⟩) := by
                        simp [Serde.deEntry, hq, Serde.deSecond, hs, Serde.deThird, Serde.deValue, hsup, hv, hde, hb]
                      by_cases hc : (X.fmt.strictEnd && !rest.isEmpty) = true
                      · rw [if_pos hc] at e1 e2
                        refine .inr ⟨by rw [e2]; simp, h', [(x, s.ty)], _, e1, by simp, h2, .inl ⟨?_, rfl⟩⟩
                        rw [Bool.and_eq_true] at hc
                        cases rest with
                        | nil => simp at hc
                        | cons ex rest =>
                          exact ⟨hc.1, d, n, dv, ex, rest, q, r, s, v, rfl, hq, rfl, hr, hsup, hst, hde⟩
                      · rw [if_neg hc] at e1 e2
                        refine .inl ⟨h', _, _, e1, e2, rfl, h2, ?_⟩
                        rintro ⟨h3, dq, n', dv', ex, rest', _, _, _, _, hd, _⟩
                        cases hd
                        simp [h3] at hc
                    · exact absurd hst hn
                · have hv : validate (E.layout s.ty) = .error .panic := by rw [validate_eq]; simp [hst]
                  refine .inr (bad (.error .panic)
                    (by simp [Serde.ownEntry, hq, hs, Serde.ownThird, Serde.ownValue, hsup, hv]) (by simp)
                    (by simp [Serde.deEntry, hq, Serde.deSecond, hs, Serde.deThird, Serde.deValue, hsup, hv]) ?_)
                  exact hsp _ (fun _ _ hh _ => hst hh)
              · refine .inr (bad (.error .panic)
                  (by simp [Serde.ownEntry, hq, hs, Serde.ownThird, Serde.ownValue, hsup]) (by simp)
                  (by simp [Serde.deEntry, hq, Serde.deSecond, hs, Serde.deThird, Serde.deValue, hsup]) ?_)
                exact hsp _ (fun _ hh _ _ => hsup hh)
  | _ => exact other (by simp)

/-- the stats and qualifiers of a map -/
def shapes {B : Type} (m : List (Entry E Q B)) : List (StatInst E × Qualifier Q) := m.map Entry.shape

/-- a list of entries contains a spoiled one after readable ones -/
def LosesIn (X : Serde E Q) (sc : DeScope E) (l : List Data) : Prop :=
  ∃ pre e post, l = pre ++ e :: post ∧ (∀ x ∈ pre, ∃ y, X.deEntry sc x = .ok (some y)) ∧ Spoiled X sc e

theorem losesIn_nil : ¬ LosesIn X sc [] := by
  rintro ⟨pre, e, post, h, _⟩
  simp at h

theorem losesIn_cons (d : Data) (l : List Data) :
    LosesIn X sc (d :: l) ↔ Spoiled X sc d ∨ ((∃ y, X.deEntry sc d = .ok (some y)) ∧ LosesIn X sc l) := by
  constructor
  · rintro ⟨pre, e, post, h, h1, h2⟩
    cases pre with
    | nil =>
      cases h
      exact .inl h2
    | cons x pre =>
      cases h
      exact .inr ⟨h1 d List.mem_cons_self, pre, e, post, rfl, fun x hx => h1 x (List.mem_cons_of_mem _ hx), h2⟩
  · rintro (h | ⟨h1, pre, e, post, rfl, h2, h3⟩)
    · exact ⟨[], d, l, rfl, by simp, h⟩
    · refine ⟨d :: pre, e, post, rfl, fun x hx => ?_, h3⟩
      rcases List.mem_cons.1 hx with rfl | hx
      · exact h1
      · exact h2 x hx

theorem Serde.ownEntries_books {O : List (Cell × E.U)} (l : List Data) {h : Heap E.U} {acc : LMap E Q}
    (b : Books h (LMap.cells acc ++ O)) :
    (∃ h' es es', X.ownEntries sc h acc l = (h', some (acc ++ es)) ∧ X.deEntries sc l = .ok (some es') ∧
      shapes es = shapes es' ∧ Books h' (LMap.cells (acc ++ es) ++ O) ∧ ¬ LosesIn X sc l) ∨
    ((∀ es', X.deEntries sc l ≠ .ok (some es')) ∧ ∃ h' lost, X.ownEntries sc h acc l = (h', none) ∧
      Books h' (lost ++ O) ∧ ((LosesIn X sc l ∧ lost.length = 1) ∨ (¬ LosesIn X sc l ∧ lost = []))) := by
  induction l generalizing h acc with
  | nil => exact .inl ⟨h, [], [], by simp [Serde.ownEntries], rfl, rfl, by simpa using b, losesIn_nil⟩
  | cons d l ih =>
    rcases Serde.ownEntry_books (X := X) (sc := sc) b d with
      ⟨h', e, e', h1, h2, h3, h4, h5⟩ | ⟨h1, h', lost, o, h2, h3, h4, h5⟩
    · have hstep : X.ownEntries sc h acc (d :: l) = X.ownEntries sc h' (acc ++ [e]) l := by
        simp only [Serde.ownEntries, h1]
      have hl : LosesIn X sc (d :: l) ↔ LosesIn X sc l := by
        rw [losesIn_cons]
        exact ⟨fun h => h.elim (fun h => absurd h h5) (·.2), fun h => .inr ⟨⟨e', h2⟩, h⟩⟩
      have b' : Books h' (LMap.cells (acc ++ [e]) ++ O) := h4.perm (by
        simp only [LMap.cells, List.map_append, List.map_cons, List.map_nil, List.append_assoc, List.cons_append,
          List.nil_append]
        exact List.perm_middle.symm)
      rw [hstep, hl]
      rcases ih b' with ⟨h6, es, es', h7, h8, h9, h10, h11⟩ | ⟨h6, h7⟩
      · refine .inl ⟨h6, e :: es, e' :: es', by rw [h7]; simp, ?_, ?_, by simpa using h10, h11⟩
        · simp [Serde.deEntries, h2, h8]
        · simp only [shapes, List.map_cons] at h9 ⊢
          rw [h3, h9]
      · refine .inr ⟨fun es' hes => ?_, h7⟩
        simp only [Serde.deEntries, h2, Res.bind_ok] at hes
        rw [Res.bind_eq_ok] at hes
        obtain ⟨os, h8, h9⟩ := hes
        cases os with
        | none => cases h9
        | some es => exact h6 es h8
    · have hstep : X.ownEntries sc h acc (d :: l) = (LMap.dropAll h' acc, none) := by
        simp only [Serde.ownEntries, h2]
      have hl : LosesIn X sc (d :: l) ↔ Spoiled X sc d := by
        rw [losesIn_cons]
        exact ⟨fun h => h.elim id (fun ⟨⟨y, hy⟩, _⟩ => absurd hy (h1 y)), .inl⟩
      rw [hl]
      refine .inr ⟨fun es' hes => ?_, _, lost, hstep, Books.dropAll (h4.perm ?_), h5⟩
      · simp only [Serde.deEntries] at hes
        rw [Res.bind_eq_ok] at hes
        obtain ⟨oe, h8, h9⟩ := hes
        cases oe with
        | none => cases h9
        | some e => exact h1 e h8
      · rw [← List.append_assoc, ← List.append_assoc]
        exact List.perm_append_comm.append_right _

theorem Serde.ownMap_books {O : List (Cell × E.U)} (d : Data) {h : Heap E.U} (b : Books h O) :
    (∃ h' m m', X.ownMap sc h d = (h', some m) ∧ X.deMap sc d = .ok (some m') ∧ shapes m = shapes m' ∧
      Books h' (LMap.cells m ++ O) ∧ ¬ LosesOne X sc d) ∨
    ((∀ m', X.deMap sc d ≠ .ok (some m')) ∧ ∃ h' lost, X.ownMap sc h d = (h', none) ∧ Books h' (lost ++ O) ∧
      ((LosesOne X sc d ∧ lost.length = 1) ∨ (¬ LosesOne X sc d ∧ lost = []))) := by
  have hl : ∀ l, deStruct X.fmt ["inner"] d = some [.seq l] → (LosesOne X sc d ↔ LosesIn X sc l) := by
    intro l hd
    constructor
    · rintro ⟨pre, e, post, h, h1, h2⟩
      rw [hd] at h
      simp only [Option.some.injEq, List.cons.injEq, Data.seq.injEq, and_true] at h
      exact ⟨pre, e, post, h, h1, h2⟩
    · rintro ⟨pre, e, post, rfl, h1, h2⟩
      exact ⟨pre, e, post, hd, h1, h2⟩
  unfold Serde.ownMap Serde.deMap
  split
  · rename_i l hd
    rw [hl l hd]
    simp only [hd]
    have := Serde.ownEntries_books (X := X) (sc := sc) (O := O) l (h := h) (acc := []) b
    simpa using this
  · rename_i hd
    refine .inr ⟨by simp, h, [], rfl, b, .inr ⟨?_, rfl⟩⟩
    rintro ⟨pre, e, post, h, _⟩
    exact hd _ h

/-- what the plain model loads from several data -/
def Serde.loadedShapes (X : Serde E Q) (sc : DeScope E) (ds : List Data) : List (List (StatInst E × Qualifier Q)) :=
  ds.filterMap fun d => match X.deMap sc d with
    | .ok (some m) => some (shapes m)
    | _ => none

open Classical in
theorem Serde.ownAll_books (ds : List Data) (st : LState E Q) (R : List (Cell × E.U))
    (b : Books st.heap (st.maps.flatMap LMap.cells ++ R)) :
    ∃ lost : List (Cell × E.U), Books (X.ownAll sc st ds).heap
        ((X.ownAll sc st ds).maps.flatMap LMap.cells ++ (lost ++ R)) ∧
      lost.length = (ds.filter (fun d => decide (LosesOne X sc d))).length ∧
      (X.ownAll sc st ds).maps.map shapes = st.maps.map shapes ++ X.loadedShapes sc ds := by
  induction ds generalizing st R with
  | nil => exact ⟨[], b, rfl, by simp [Serde.ownAll, Serde.loadedShapes]⟩
  | cons d ds ih =>
    rcases Serde.ownMap_books (X := X) (sc := sc) d b with
      ⟨h', m, m', h1, h2, h3, h4, h5⟩ | ⟨h1, h', lost, h2, h3, h4⟩
    · obtain ⟨l2, b2, h6, h7⟩ := ih ⟨h', st.maps ++ [m]⟩ R (h4.perm (by
        simp only [List.flatMap_append, List.flatMap_cons, List.flatMap_nil, List.append_nil]
        rw [← List.append_assoc]
        exact List.perm_append_comm.append_right _))
      have hst : X.ownAll sc st (d :: ds) = X.ownAll sc ⟨h', st.maps ++ [m]⟩ ds := by
        simp only [Serde.ownAll, h1, LState.push]
      rw [hst]
      refine ⟨l2, b2, ?_, ?_⟩
      · rw [h6]; simp [h5]
      · rw [h7]
        simp [Serde.loadedShapes, h2, h3]
    · have hst : X.ownAll sc st (d :: ds) = X.ownAll sc ⟨h', st.maps⟩ ds := by
        simp only [Serde.ownAll, h2, LState.push]
      obtain ⟨l2, b2, h6, h7⟩ := ih ⟨h', st.maps⟩ (lost ++ R) (h3.perm (by
        rw [← List.append_assoc, ← List.append_assoc]
        exact List.perm_append_comm.append_right _))
      rw [hst]
      refine ⟨l2 ++ lost, by rw [List.append_assoc]; exact b2, ?_, ?_⟩
      · rw [List.length_append, h6]
        rcases h4 with ⟨h8, h9⟩ | ⟨h8, h9⟩
        · simp [h8, h9]
        · simp [h8, h9]
      · have hn : X.loadedShapes sc (d :: ds) = X.loadedShapes sc ds := by
          unfold Serde.loadedShapes
          rw [List.filterMap_cons]
          split
          · rfl
          · rename_i y hy
            split at hy
            · rename_i m hm
              exact absurd hm (h1 m)
            · cases hy
        rw [h7, hn]

theorem Books.dropMaps {R : List (Cell × E.U)} (ms : List (LMap E Q)) {h : Heap E.U}
    (b : Books h (ms.flatMap LMap.cells ++ R)) : Books (ms.foldl LMap.dropAll h) R := by
  induction ms generalizing h with
  | nil => exact b
  | cons m ms ih =>
    refine ih (Books.dropAll ?_)
    simpa only [List.flatMap_cons, List.append_assoc] using b

/-- **C77**: load any number of maps from any data, some of which are rejected or make the loader panic, and drop
the loaded maps: no value is dropped twice, and none is dropped at another type than its own. -/
theorem C77_sound (X : Serde E Q) (sc : DeScope E) (ds : List Data) :
    Sound (X.ownAll sc LState.new ds).finish.log := by
  obtain ⟨_, b, _⟩ := Serde.ownAll_books (X := X) (sc := sc) ds LState.new [] Books.new
  exact (Books.dropMaps _ b).sound

open Classical in
/-- C78, exactly: one value is never dropped for each of the data that fails at an entry with something after the
value; nothing else is lost. -/
theorem C78_exact (X : Serde E Q) (sc : DeScope E) (ds : List Data) :
    (unreleased (X.ownAll sc LState.new ds).finish.log).length =
      (ds.filter (fun d => decide (LosesOne X sc d))).length := by
  obtain ⟨lost, b, h, _⟩ := Serde.ownAll_books (X := X) (sc := sc) ds LState.new [] Books.new
  refine (Books.dropMaps _ b).all.length_eq.trans ?_
  rw [List.length_map, ← h]
  simp

/-- C77: what is loaded is what `deMap` (C13, C14) says -/
theorem C77_loads (X : Serde E Q) (sc : DeScope E) (ds : List Data) :
    (X.ownAll sc LState.new ds).maps.map shapes = X.loadedShapes sc ds := by
  obtain ⟨_, _, _, h⟩ := Serde.ownAll_books (X := X) (sc := sc) ds LState.new [] Books.new
  exact h

/-- C78 (the part that holds): nothing is lost with formats that ignore what follows an entry.  Missing: formats that
object to it, refuted below. -/
theorem C78_no_leak_partial (X : Serde E Q) (sc : DeScope E) (hX : X.fmt.strictEnd = false) (ds : List Data) :
    unreleased (X.ownAll sc LState.new ds).finish.log = [] := by
  classical
  rw [← List.length_eq_zero_iff, C78_exact, List.length_eq_zero_iff, List.filter_eq_nil_iff]
  intro d _
  simp only [decide_eq_true_eq]
  rintro ⟨_, e, _, _, _, h, _⟩
  rw [hX] at h
  cases h

/-- **C78 is refuted**: an entry of four elements is rejected by a strict format after its value was read, and the
value is never dropped. -/
theorem C78_refuted :
    let reg : Registry demo := fun n => if n = "int0" then some (demoInt 0) else none
    let d : Data := .fields [("inner", .seq [.seq [.other [1, 0], .str "int0", .other [6, 0, 9, 1], .unit]])]
    demoSerde.deMap (.registry reg) d = .ok none ∧
    (unreleased (demoSerde.ownAll (.registry reg) LState.new [d]).finish.log).length = 1 := by
  exact ⟨rfl, rfl⟩

/-- C77, C78: loading a map of two entries, a rejected one, and one without surplus -/
example :
    let reg : Registry demo := fun n => if n = "int0" then some (demoInt 0) else none
    let e : Data := .seq [.other [1, 0], .str "int0", .other [6, 0, 9, 1]]
    let bad : Data := .seq [.other [1, 0], .str "int0", .str "x"]
    let st := demoSerde.ownAll (.registry reg) LState.new
      [.fields [("inner", .seq [e, e])], .fields [("inner", .seq [e, bad, e])], .fields [("inner", .seq [e])]]
    st.maps.map List.length = [2, 1] ∧ unreleased st.finish.log = [] := by
  exact ⟨rfl, rfl⟩

end BSQ
