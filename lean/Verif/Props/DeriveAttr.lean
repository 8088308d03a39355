import Verif.Spec.DeriveAttr
import Verif.Props.Derive
/-!
# C90: the value type of a derived stat
-/
namespace BSQ
open Derive
variable {Ty : Type} (ty : String → Option Ty)

/-- what a list of named types makes of the variable -/
def fillNames (v : Option Ty) : List String → Option (Option Ty)
  | [] => some v
  | s :: l => (ty s).bind (fun t => fillNames (some t) l)

theorem fillNames_append (v : Option Ty) (a b : List String) :
    fillNames ty v (a ++ b) = (fillNames ty v a).bind (fun w => fillNames ty w b) := by
  induction a generalizing v with
  | nil => rfl
  | cons s a ih =>
    simp only [List.cons_append, fillNames]
    cases ty s with
    | none => rfl
    | some t => exact ih _

theorem fillNames_eq (v w : Option Ty) (l : List String) :
    fillNames ty v l = some w ↔ (∀ s ∈ l, (ty s).isSome) ∧ w = l.getLast?.elim v ty := by
  induction l generalizing v with
  | nil =>
    simp only [fillNames, Option.some.injEq, List.not_mem_nil, false_implies, implies_true, true_and,
      List.getLast?_nil, Option.elim_none]
    exact eq_comm
  | cons s l ih =>
    simp only [fillNames]
    cases hs : ty s with
    | none => simp [hs]
    | some t =>
      simp only [Option.bind_some, ih, List.mem_cons, forall_eq_or_imp, hs, Option.isSome_some, true_and]
      cases l with
      | nil => simp [hs]
      | cons a l =>
        rw [List.getLast?_cons_cons]
        cases hg : (a :: l).getLast? with
        | none => simp at hg
        | some z => simp

theorem nested_item (v : Option Ty) (i : Meta) (rest : List Tok) :
    nested ty v (i.toks ++ rest) = (fillNames ty v i.names).bind (fun w => afterItem ty w rest) := by
  cases i with
  | value s =>
    simp only [Meta.toks, Meta.names, List.cons_append, List.nil_append, fillNames]
    rw [nested.eq_def]
    simp only [ne_eq, not_true_eq_false, if_false]
    cases ty s <;> rfl
  | word p h =>
    simp only [Meta.toks, Meta.names, List.cons_append, List.nil_append, fillNames]
    rw [nested.eq_def]
    simp only [ne_eq, h, not_false_eq_true, if_true, Option.bind_some]

theorem nested_reads {toks : List Tok} {names : List String} {bad : Bool} (h : Reads toks names bad)
    (v : Option Ty) :
    nested ty v toks = if bad then none else fillNames ty v names := by
  induction h generalizing v with
  | @stop toks h =>
    rw [nested.eq_def]
    split
    · exact absurd rfl (h _ _)
    · rfl
  | @noEq rest h =>
    rw [nested.eq_def]
    simp only [ne_eq, not_true_eq_false, if_false]
    split
    · exact absurd rfl (h _)
    · exact absurd rfl (h _)
    · rfl
  | @noStr rest h =>
    rw [nested.eq_def]
    simp only [ne_eq, not_true_eq_false, if_false]
    cases rest with
    | nil => rfl
    | cons a r =>
      cases a with
      | str s => exact absurd rfl (h _ _)
      | _ => rfl
  | @last rest i h =>
    rw [nested_item]
    cases hn : fillNames ty v i.names with
    | none => simp
    | some w =>
      simp only [Option.bind_some]
      rw [afterItem.eq_def]
      split
      · exact absurd rfl (h _)
      · simp
  | @more rest names bad i h ih =>
    rw [nested_item, fillNames_append]
    cases hn : fillNames ty v i.names with
    | none => simp
    | some w =>
      simp only [Option.bind_some]
      rw [afterItem.eq_def]
      exact ih w

/-- every list of tokens is read in exactly one way, by items from the front -/
theorem Reads.determined (toks : List Tok) : ∃ names bad, Reads toks names bad ∧
    ∀ names' bad', Reads toks names' bad' → names' = names ∧ bad' = bad := by
  -- the reading is determined by what the macro does with types that are their own text
  have key : ∀ names bad names' bad', Reads toks names bad → Reads toks names' bad' → names' = names ∧ bad' = bad := by
    intro names bad names' bad' h h'
    induction h generalizing names' bad' with
    | @stop toks h =>
      cases h' with
      | stop => simp
      | noEq => exact absurd rfl (h _ _)
      | noStr => exact absurd rfl (h _ _)
      | last i => cases i <;> exact absurd rfl (h _ _)
      | more i => cases i <;> exact absurd rfl (h _ _)
    | @noEq rest h =>
      generalize ht : Tok.path "value" :: rest = t at h'
      cases h' with
      | stop g => subst ht; exact absurd rfl (g _ _)
      | noEq => simp
      | noStr => simp only [List.cons.injEq, true_and] at ht; exact absurd ht (h _)
      | last i =>
        cases i with
        | value s => simp only [Meta.toks, List.cons_append, List.cons.injEq, true_and] at ht; exact absurd ht (h _)
        | word p hp => simp only [Meta.toks, List.cons_append, List.cons.injEq, Tok.path.injEq] at ht; exact absurd ht.1.symm hp
      | more i =>
        cases i with
        | value s => simp only [Meta.toks, List.cons_append, List.cons.injEq, true_and] at ht; exact absurd ht (h _)
        | word p hp => simp only [Meta.toks, List.cons_append, List.cons.injEq, Tok.path.injEq] at ht; exact absurd ht.1.symm hp
    | @noStr rest h =>
      generalize ht : Tok.path "value" :: Tok.eq :: rest = t at h'
      cases h' with
      | stop g => subst ht; exact absurd rfl (g _ _)
      | noEq g => simp only [List.cons.injEq, true_and] at ht; exact absurd ht.symm (g _)
      | noStr => simp
      | last i =>
        cases i with
        | value s => simp only [Meta.toks, List.cons_append, List.cons.injEq, true_and] at ht; exact absurd ht (h _ _)
        | word p hp => simp only [Meta.toks, List.cons_append, List.cons.injEq, Tok.path.injEq] at ht; exact absurd ht.1.symm hp
      | more i =>
        cases i with
        | value s => simp only [Meta.toks, List.cons_append, List.cons.injEq, true_and] at ht; exact absurd ht (h _ _)
        | word p hp => simp only [Meta.toks, List.cons_append, List.cons.injEq, Tok.path.injEq] at ht; exact absurd ht.1.symm hp
    | @last rest i h =>
      generalize ht : i.toks ++ rest = t at h'
      cases h' with
      | stop g => cases i <;> (simp only [Meta.toks, List.cons_append] at ht; subst ht; exact absurd rfl (g _ _))
      | noEq g =>
        cases i with
        | value s => simp only [Meta.toks, List.cons_append, List.cons.injEq, true_and] at ht; exact absurd ht.symm (g _)
        | word p hp => simp only [Meta.toks, List.cons_append, List.cons.injEq, Tok.path.injEq] at ht; exact absurd ht.1 hp
      | noStr g =>
        cases i with
        | value s => simp only [Meta.toks, List.cons_append, List.cons.injEq, true_and] at ht; exact absurd ht.symm (g _ _)
        | word p hp => simp only [Meta.toks, List.cons_append, List.cons.injEq, Tok.path.injEq] at ht; exact absurd ht.1 hp
      | last j =>
        cases i <;> cases j <;> simp only [Meta.toks, List.cons_append, List.nil_append, List.cons.injEq, Tok.path.injEq, Tok.str.injEq, true_and] at ht
        · simp [Meta.names, ht.1]
        · exact absurd ht.1.symm (by assumption)
        · exact absurd ht.1 (by assumption)
        · simp [Meta.names]
      | more j =>
        cases i <;> cases j <;> simp only [Meta.toks, List.cons_append, List.nil_append, List.cons.injEq, Tok.path.injEq, Tok.str.injEq, true_and] at ht
        · exact absurd ht.2 (h _)
        · rename_i hp; exact absurd ht.1.symm hp
        · rename_i hp _; exact absurd ht.1 hp
        · exact absurd ht.2 (h _)
    | @more rest names bad i h ih =>
      generalize ht : i.toks ++ Tok.comma :: rest = t at h'
      cases h' with
      | stop g => cases i <;> (simp only [Meta.toks, List.cons_append] at ht; subst ht; exact absurd rfl (g _ _))
      | noEq g =>
        cases i with
        | value s => simp only [Meta.toks, List.cons_append, List.cons.injEq, true_and] at ht; exact absurd ht.symm (g _)
        | word p hp => simp only [Meta.toks, List.cons_append, List.cons.injEq, Tok.path.injEq] at ht; exact absurd ht.1 hp
      | noStr g =>
        cases i with
        | value s => simp only [Meta.toks, List.cons_append, List.cons.injEq, true_and] at ht; exact absurd ht.symm (g _ _)
        | word p hp => simp only [Meta.toks, List.cons_append, List.cons.injEq, Tok.path.injEq] at ht; exact absurd ht.1 hp
      | last j g =>
        cases i <;> cases j <;> simp only [Meta.toks, List.cons_append, List.nil_append, List.cons.injEq, Tok.path.injEq, Tok.str.injEq, true_and] at ht
        · exact absurd ht.2.symm (g _)
        · rename_i hp; exact absurd ht.1.symm hp
        · rename_i hp _; exact absurd ht.1 hp
        · exact absurd ht.2.symm (g _)
      | more j g =>
        cases i <;> cases j <;> simp only [Meta.toks, List.cons_append, List.nil_append, List.cons.injEq, Tok.path.injEq, Tok.str.injEq, true_and] at ht
        · obtain ⟨e, rfl⟩ := ht
          obtain ⟨e1, e2⟩ := ih _ _ g
          simp [Meta.names, e, e1, e2]
        · rename_i hp; exact absurd ht.1.symm hp
        · rename_i hp _; exact absurd ht.1 hp
        · obtain ⟨e, rfl⟩ := ht
          obtain ⟨e1, e2⟩ := ih _ _ g
          simp [Meta.names, e1, e2]
  suffices hex : ∃ names bad, Reads toks names bad by
    obtain ⟨names, bad, h⟩ := hex
    exact ⟨names, bad, h, fun n' b' h' => key _ _ _ _ h h'⟩
  clear key
  -- existence, by the length
  suffices H : ∀ n, ∀ toks : List Tok, toks.length ≤ n → ∃ names bad, Reads toks names bad from H _ toks (Nat.le_refl _)
  intro n
  induction n with
  | zero =>
    intro toks h
    have : toks = [] := List.eq_nil_of_length_eq_zero (by omega)
    subst this
    exact ⟨_, _, .stop (by simp)⟩
  | succ n ih =>
    intro toks h
    have item : ∀ (i : Meta) (rest : List Tok), rest.length ≤ n → ∃ names bad, Reads (i.toks ++ rest) names bad := by
      intro i rest hl
      by_cases hc : ∃ r, rest = .comma :: r
      · obtain ⟨r, rfl⟩ := hc
        obtain ⟨names, bad, hr⟩ := ih r (by simp at hl; omega)
        exact ⟨_, _, .more i hr⟩
      · exact ⟨_, _, .last i (fun r e => hc ⟨r, e⟩)⟩
    by_cases hp : ∃ p r, toks = .path p :: r
    · obtain ⟨p, r, rfl⟩ := hp
      simp only [List.length_cons] at h
      by_cases hv : p = "value"
      · subst hv
        by_cases he : ∃ r', r = .eq :: r'
        · obtain ⟨r', rfl⟩ := he
          by_cases hs : ∃ s r'', r' = .str s :: r''
          · obtain ⟨s, r'', rfl⟩ := hs
            exact item (.value s) r'' (by simp at h; omega)
          · exact ⟨_, _, .noStr (fun s r e => hs ⟨s, r, e⟩)⟩
        · exact ⟨_, _, .noEq (fun r e => he ⟨r, e⟩)⟩
      · exact item (.word p hv) r (by omega)
    · exact ⟨_, _, .stop (fun p r e => hp ⟨p, r, e⟩)⟩

theorem attrsFrom_eq (attrs : List Attr) (v : Option Ty) :
    attrsFrom ty v attrs = (statArgs attrs).foldlM (fun w toks => nested ty w toks) v := by
  induction attrs generalizing v with
  | nil => rfl
  | cons a l ih =>
    unfold attrsFrom statArgs
    by_cases h : a.path = "stat"
    · cases ha : a.args with
      | none => simp [h, ha, ih, statArgs]
      | some toks =>
        have e : List.filterMap (·.args) (List.filter (fun a => a.path == "stat") (a :: l)) = toks :: statArgs l := by
          simp [h, ha, statArgs]
        rw [e, List.foldlM_cons]
        simp only [ne_eq, h, not_true_eq_false, if_false]
        cases nested ty v toks with
        | none => rfl
        | some w => exact ih w
    · simp [h, ih, statArgs]

theorem foldlM_reads {args : List (List Tok)} {ns : List (List String)} {bs : List Bool}
    (h : List.Forall₂ (fun toks (p : List String × Bool) => Reads toks p.1 p.2) args (ns.zip bs))
    (hl : ns.length = bs.length) (v : Option Ty) :
    args.foldlM (fun w toks => nested ty w toks) v =
      if true ∈ bs then none else fillNames ty v ns.flatten := by
  induction ns generalizing args bs v with
  | nil =>
    have : bs = [] := List.eq_nil_of_length_eq_zero (by simpa using hl.symm)
    subst this
    simp only [List.zip_nil_left, List.forall₂_nil_right_iff] at h
    subst h
    simp [fillNames]
  | cons n ns ih =>
    cases bs with
    | nil => simp at hl
    | cons b bs =>
      simp only [List.zip_cons_cons] at h
      cases h with
      | cons h1 h2 =>
        rename_i toks args
        simp only [List.foldlM_cons, List.flatten_cons, fillNames_append, List.mem_cons]
        rw [nested_reads ty h1 v]
        cases b with
        | true => simp
        | false =>
          simp only [Bool.false_eq_true, if_false]
          cases fillNames ty v n with
          | none => simp
          | some w =>
            simp only [Option.bind_eq_bind, Option.bind_some, reduceCtorEq, false_or]
            exact ih h2 (by simpa using hl) w

/-- the shapes of items the macro supports, with the generated functions -/
def ShapeOf (item : Item) (d : Impl) : Prop :=
  (∃ ident, item = .struct ident true ∧ d = ⟨[ident], [0], some 0⟩) ∨ (∃ vs, item = .enum vs ∧ enum vs = some d)

/-- **C90** The macro accepts an item exactly if it is a unit struct or an acceptable enum, every type named in the
`#[stat(...)]` attributes parses, no `value =` lacks its string, and some type is named; the value type of the stat
is then the last one named. -/
theorem C90_value_type (attrs : List Attr) (item : Item) (d : Impl) (t : Ty) :
    Derive.stat ty attrs item = some (d, t) ↔
      ShapeOf item d ∧ ∃ ns : List (List String),
        List.Forall₂ (fun toks n => Reads toks n false) (statArgs attrs) ns ∧
        (∀ s ∈ ns.flatten, (ty s).isSome) ∧ ∃ s, ns.flatten.getLast? = some s ∧ ty s = some t := by
  have hitem : Derive.stat ty attrs item = some (d, t) ↔
      ShapeOf item d ∧ attrsFrom ty none attrs = some (some t) := by
    unfold Derive.stat ShapeOf
    cases ha : attrsFrom ty none attrs with
    | none => simp
    | some o =>
      cases o with
      | none => simp
      | some t' =>
        cases item with
        | struct ident u =>
          cases u
          · simp
          · simp [unitStruct, eq_comm]
        | enum vs =>
          simp only [reduceCtorEq, false_and, exists_false, Item.enum.injEq, false_or]
          cases he : enum vs with
          | none => simp [he]
          | some e => simp [he]
        | union => simp
  rw [hitem, attrsFrom_eq]
  apply and_congr_right
  intro _
  have hreads : ∀ args : List (List Tok), ∃ (ns : List (List String)) (bs : List Bool), ns.length = bs.length ∧
      List.Forall₂ (fun toks (p : List String × Bool) => Reads toks p.1 p.2) args (ns.zip bs) := by
    intro args
    induction args with
    | nil => exact ⟨[], [], rfl, by simp⟩
    | cons a l ih =>
      obtain ⟨ns, bs, hl, hf⟩ := ih
      obtain ⟨n, b, hr, _⟩ := Reads.determined a
      exact ⟨n :: ns, b :: bs, by simp [hl], by simpa using ⟨hr, hf⟩⟩
  constructor
  · intro h
    obtain ⟨ns, bs, hl, hf⟩ := hreads (statArgs attrs)
    rw [foldlM_reads ty hf hl none] at h
    by_cases hb : true ∈ bs
    · simp [hb] at h
    · rw [if_neg hb, fillNames_eq] at h
      refine ⟨ns, ?_, h.1, ?_⟩
      · clear h
        generalize statArgs attrs = args at hf
        induction ns generalizing bs args with
        | nil => simpa using hf
        | cons n ns ih =>
          cases bs with
          | nil => simp at hl
          | cons b bs =>
            simp only [List.zip_cons_cons] at hf
            cases hf with
            | cons h1 h2 =>
              simp only [List.mem_cons, not_or] at hb
              have : b = false := by cases b <;> simp_all
              subst this
              exact .cons h1 (ih bs (by simpa using hl) hb.2 _ h2)
      · cases hg : ns.flatten.getLast? with
        | none => rw [hg] at h; simp at h
        | some s => rw [hg] at h; exact ⟨s, rfl, h.2.symm⟩
  · rintro ⟨ns, hf, hp, s, hs, ht⟩
    have hf' : List.Forall₂ (fun toks (p : List String × Bool) => Reads toks p.1 p.2) (statArgs attrs)
        (ns.zip (List.replicate ns.length false)) := by
      clear hp hs ht
      generalize statArgs attrs = args at hf
      induction hf with
      | nil => simp
      | cons h1 h2 ih => simpa [List.replicate_succ] using ⟨h1, ih⟩
    rw [foldlM_reads ty hf' (by simp) none, if_neg (by simp), fillNames_eq]
    exact ⟨hp, by rw [hs]; exact ht.symm⟩

/-- well-formed items with commas between them, trailing comma allowed, are all read -/
theorem Reads.well_formed (items : List Meta) :
    Reads (render items) (items.flatMap (·.names)) false ∧
    (items ≠ [] → Reads (render items ++ [.comma]) (items.flatMap (·.names)) false) := by
  induction items with
  | nil => exact ⟨.stop (by simp [render]), by simp⟩
  | cons i l ih =>
    cases l with
    | nil =>
      constructor
      · simpa [render] using Reads.last (rest := []) i (by simp)
      · intro _
        simpa [render] using Reads.more i (Reads.stop (toks := []) (by simp))
    | cons j l =>
      constructor
      · simpa [render] using Reads.more i ih.1
      · intro _
        simpa [render] using Reads.more i (ih.2 (by simp))

/-- after an item, whatever does not begin with a comma is not read -/
theorem Reads.rest_ignored (items : List Meta) (hne : items ≠ []) (junk : List Tok) (h : ∀ r, junk ≠ .comma :: r) :
    Reads (render items ++ junk) (items.flatMap (·.names)) false := by
  induction items with
  | nil => exact absurd rfl hne
  | cons i l ih =>
    cases l with
    | nil => simpa [render] using Reads.last i h
    | cons j l => simpa [render] using Reads.more i (ih (by simp))

/-- the answer for one attribute, from its reading -/
theorem stat_of_reads {toks : List Tok} {names : List String} (h : Reads toks names false) (item : Item) (d : Impl)
    (t : Ty) : Derive.stat ty [⟨"stat", some toks⟩] item = some (d, t) ↔
      ShapeOf item d ∧ (∀ s ∈ names, (ty s).isSome) ∧ ∃ s, names.getLast? = some s ∧ ty s = some t := by
  rw [C90_value_type]
  have e : statArgs [⟨"stat", some toks⟩] = [toks] := by simp [statArgs]
  rw [e]
  apply and_congr_right
  intro _
  constructor
  · rintro ⟨ns, hf, hp, hl⟩
    cases hf with
    | cons h1 h2 =>
      cases h2
      obtain ⟨n0, b0, _, hu⟩ := Reads.determined toks
      have e1 := (hu _ _ h1).1
      have e2 := (hu _ _ h).1
      subst e1 e2
      simpa using And.intro hp hl
  · rintro ⟨hp, hl⟩
    exact ⟨[names], .cons h .nil, by simpa using hp, by simpa using hl⟩

/-- C90: with one attribute of well-formed items, commas between them and perhaps one behind them, the macro accepts
the item exactly if its shape is supported, all named types parse and there is one; the last one is taken.  Words
are ignored. -/
theorem C90_well_formed (items : List Meta) (trailing : Bool) (item : Item) (d : Impl) (t : Ty) (h : items ≠ []) :
    Derive.stat ty [⟨"stat", some (render items ++ if trailing then [.comma] else [])⟩] item = some (d, t) ↔
      ShapeOf item d ∧ (∀ s, .value s ∈ items → (ty s).isSome) ∧
      ∃ s, (items.flatMap (·.names)).getLast? = some s ∧ ty s = some t := by
  have hr : Reads (render items ++ if trailing then [.comma] else []) (items.flatMap (·.names)) false := by
    cases trailing with
    | true => exact (Reads.well_formed items).2 h
    | false => simpa using (Reads.well_formed items).1
  rw [stat_of_reads ty hr]
  have : (∀ s ∈ items.flatMap (·.names), (ty s).isSome) ↔ (∀ s, .value s ∈ items → (ty s).isSome) := by
    constructor
    · intro h s hs
      exact h s (List.mem_flatMap.2 ⟨_, hs, by simp [Meta.names]⟩)
    · intro h s hs
      obtain ⟨i, hi, hm⟩ := List.mem_flatMap.1 hs
      cases i with
      | value s' =>
        simp only [Meta.names, List.mem_singleton] at hm
        subst hm
        exact h _ hi
      | word p hp => simp [Meta.names] at hm
  rw [this]

/-- C90: after an item, whatever does not begin with a comma is ignored without a message, even further
`value = "T"` -/
theorem C90_rest_ignored (items : List Meta) (hne : items ≠ []) (junk : List Tok) (h : ∀ r, junk ≠ .comma :: r)
    (item : Item) :
    Derive.stat ty [⟨"stat", some (render items ++ junk)⟩] item =
      Derive.stat ty [⟨"stat", some (render items)⟩] item := by
  apply Option.ext
  rintro ⟨d, t⟩
  rw [stat_of_reads ty (Reads.rest_ignored items hne junk h), stat_of_reads ty (Reads.well_formed items).1]

/-- C90: a `value =` without a string behind well-formed items makes the macro reject every item -/
theorem C90_no_string (items : List Meta) (rest : List Tok) (h : ∀ s r, rest ≠ .str s :: r) (item : Item) :
    Derive.stat ty
      [⟨"stat", some (items.flatMap (fun i => i.toks ++ [.comma]) ++ .path "value" :: .eq :: rest)⟩] item = none := by
  have hr : ∃ n, Reads (items.flatMap (fun i => i.toks ++ [.comma]) ++ .path "value" :: .eq :: rest) n true := by
    induction items with
    | nil => exact ⟨_, .noStr h⟩
    | cons i l ih =>
      obtain ⟨n, hn⟩ := ih
      exact ⟨_, by simpa using Reads.more i hn⟩
  obtain ⟨n, hr⟩ := hr
  rw [Option.eq_none_iff_forall_ne_some]
  rintro ⟨d, t⟩ hs
  rw [C90_value_type] at hs
  obtain ⟨_, ns, hf, _⟩ := hs
  simp only [statArgs, List.filter_cons, beq_self_eq_true, if_true, List.filter_nil, List.filterMap_cons,
    List.filterMap_nil] at hf
  cases hf with
  | cons h1 h2 =>
    obtain ⟨n0, b0, _, hu⟩ := Reads.determined
      (items.flatMap (fun i => i.toks ++ [.comma]) ++ .path "value" :: .eq :: rest)
    have e1 := (hu _ _ h1).2
    have e2 := (hu _ _ hr).2
    rw [← e2] at e1
    exact absurd e1 (by decide)

/-- the hypotheses of `C90_no_string` and `C90_rest_ignored` are met: `value = "A", value =` is rejected,
`value = "A" value = "B"` is read as `value = "A"` -/
example : Derive.stat some [⟨"stat", some [.path "value", .eq, .str "A", .comma, .path "value", .eq]⟩]
      (.struct "S" true) = none ∧
    Derive.stat some [⟨"stat", some [.path "value", .eq, .str "A", .path "value", .eq, .str "B"]⟩]
      (.struct "S" true) = Derive.stat some [⟨"stat", some [.path "value", .eq, .str "A"]⟩] (.struct "S" true) :=
  ⟨C90_no_string some [.value "A"] [] (by simp) _,
    C90_rest_ignored some [.value "A"] (by simp) [.path "value", .eq, .str "B"] (by simp) _⟩

/-- C90: whether a foreign item `kind = "x"` is tolerated depends on its position: behind the value type it is, in
front of it the value type is not found -/
theorem C90_order_matters :
    Derive.stat some [⟨"stat", some [.path "value", .eq, .str "T", .comma, .path "kind", .eq, .str "x"]⟩]
        (.struct "S" true) = some (⟨["S"], [0], some 0⟩, "T") ∧
    Derive.stat some [⟨"stat", some [.path "kind", .eq, .str "x", .comma, .path "value", .eq, .str "T"]⟩]
        (.struct "S" true) = none := by
  constructor
  · rw [C90_value_type]
    refine ⟨.inl ⟨_, rfl, rfl⟩, [["T"]], ?_, by simp, "T", rfl, rfl⟩
    refine .cons ?_ .nil
    exact Reads.rest_ignored [.value "T", .word "kind" (by decide)] (by simp) [.eq, .str "x"] (by simp)
  · have hr : Reads [.path "kind", .eq, .str "x", .comma, .path "value", .eq, .str "T"] [] false :=
      Reads.rest_ignored [.word "kind" (by decide)] (by simp) [.eq, .str "x", .comma, .path "value", .eq, .str "T"]
        (by simp)
    rw [Option.eq_none_iff_forall_ne_some]
    rintro ⟨d, t⟩ h
    rw [C90_value_type] at h
    obtain ⟨_, ns, hf, _, s, hs, _⟩ := h
    cases hf with
    | cons h1 h2 =>
      cases h2
      obtain ⟨n0, b0, _, hu⟩ := Reads.determined [.path "kind", .eq, .str "x", .comma, .path "value", .eq, .str "T"]
      have e1 := (hu _ _ h1).1
      have e2 := (hu _ _ hr).1
      rw [e1, ← e2] at hs
      simp at hs

/-- the hypotheses of the theorems above are met: two attributes, of which the second decides, on an enum -/
example : Derive.stat some
    [⟨"doc", none⟩, ⟨"stat", some [.path "value", .eq, .str "A"]⟩,
      ⟨"stat", some [.path "fast", .comma, .path "value", .eq, .str "B", .comma]⟩]
    (.enum [⟨"X", .none, false, true⟩, ⟨"Y", .none, true, true⟩]) =
      some (⟨["X", "Y"], [1, 2], some 1⟩, "B") := by
  rw [C90_value_type]
  refine ⟨.inr ⟨_, rfl, rfl⟩, [["A"], ["B"]], ?_, by simp, "B", rfl, rfl⟩
  exact .cons (Reads.well_formed [.value "A"]).1
    (.cons ((Reads.well_formed [.word "fast" (by decide), .value "B"]).2 (by simp)) .nil)

end BSQ
