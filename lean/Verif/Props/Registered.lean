import Verif.Spec.Registered
import Verif.Props.Bounds
import Verif.Props.Join
import Verif.Props.DefaultsExact
/-!
# C138: registered bounds hold for queries of every numeric stat type
-/
set_option linter.unusedSectionVars false
namespace BSQ
variable {E : Env} {Q Ent : Type} [DecidableEq Q] [DecidableEq Ent]

/-! ### evaluation respects the bounds, for all numeric types at once -/

theorem Reading.respects_of {V : Type} {D : StatValue V} (K : Reading ⟨V, D⟩) {tr : Tree D} {ops : List (StatOp D)}
    (hp : tr.leaves.Perm ops) {x : D.Out} {o : K.B} (ho : K.out x = some o)
    (h : @BoundsRespected V D tr K.B K.order K.bound K.lo o) : K.Respects ops x where
  number := ⟨o, ho⟩
  lower := by
    intro o' b y ho' hb hy
    cases ho.symm.trans ho'
    let := K.order
    exact h.lower b y (hp.mem_iff.2 hb) hy
  upper := by
    intro o' b y ho' hb hy hlo ha
    cases ho.symm.trans ho'
    let := K.order
    exact h.upper b y (hp.mem_iff.2 hb) hy hlo fun a z h1 h2 => ha a z (hp.mem_iff.1 h1) h2
  conflict := by
    intro o' a y b z ho' ha hy hb hz hlt hlo
    cases ho.symm.trans ho'
    let := K.order
    obtain ⟨m, z, h1, h2, h3⟩ := h.conflict a y b z (hp.mem_iff.2 ha) hy (hp.mem_iff.2 hb) hz hlt hlo
    exact ⟨m, hp.mem_iff.1 h1, h3 ▸ h2⟩

/-- a value assembled from operations evaluates within their bounds -/
theorem NumericType.respects (k : NumericType) (v : k.V.1) (ops : List (StatOp k.V.2)) (x : k.V.2.Out)
    (hv : Assembles k.V.2 k.reading.ok v ops) (he : k.V.2.eval v = .ok x) : k.reading.Respects ops x := by
  obtain ⟨tr, h1, h2, h3, h4⟩ := hv
  cases k with
  | int t => exact Reading.respects_of (NumericType.int t).reading h3 rfl (C28_int t tr h1 v x h4 he)
  | intFraction t R =>
    exact Reading.respects_of (NumericType.intFraction t R).reading h3 rfl (C28_int_fraction t R tr h1 v x h4 he)
  | intFloatMul F t O toF ofF R =>
    exact Reading.respects_of (NumericType.intFloatMul F t O toF ofF R).reading h3 rfl
      (C28_int_float_mul t O toF ofF R tr h1 v x h4 he)
  | intPercentAdditive t R S =>
    exact Reading.respects_of (NumericType.intPercentAdditive t R S).reading h3 rfl
      (C28_int_percent_additive t R S tr h1 v x h4 he)
  | intPercent t R S =>
    exact Reading.respects_of (NumericType.intPercent t R S).reading h3 rfl (C28_int_percent t R S tr h1 v x h4 he)
  | fraction t h hb =>
    exact Reading.respects_of (NumericType.fraction t h hb).reading h3 rfl (C28_fraction t h hb tr h1 h2 v x h4 he)
  | fractionAdditive t h hb =>
    exact Reading.respects_of (NumericType.fractionAdditive t h hb).reading h3 rfl
      (C28_fraction_additive t h hb tr h1 h2 v x h4 he)
  | fractionMult t h hb =>
    exact Reading.respects_of (NumericType.fractionMult t h hb).reading h3 rfl
      (C28_fraction_mult t h hb tr h1 h2 v x h4 he)
  | float f =>
    obtain ⟨o, ho, hB⟩ := C28_float f tr h1 v x h4 he
    exact Reading.respects_of (NumericType.float f).reading h3 ho hB
  | floatAdditive f =>
    obtain ⟨o, ho, hB⟩ := C28_float_additive f tr h1 v x h4 he
    exact Reading.respects_of (NumericType.floatAdditive f).reading h3 ho hB
  | floatMult f =>
    obtain ⟨o, ho, hB⟩ := C28_float_mult f tr h1 v x h4 he
    exact Reading.respects_of (NumericType.floatMult f).reading h3 ho hB

theorem Reading.respects_at {X Y : (V : Type) × StatValue V} (h : X = Y) (K : Reading Y)
    (hK : ∀ v ops x, Assembles Y.2 K.ok v ops → Y.2.eval v = .ok x → K.Respects ops x) (v : X.1)
    (ops : List (StatOp X.2)) (x : X.2.Out) (hv : Assembles X.2 (K.at h).ok v ops) (he : X.2.eval v = .ok x) :
    (K.at h).Respects ops x := by
  subst h
  exact hK v ops x hv he

/-! ### what a query starts from -/

theorem DMap.runFrom_snoc (f : DMap E) (os : List (DefOp E)) (o : DefOp E) :
    f.runFrom (os ++ [o]) = f.runFrom os >>= fun g => g.step o := by
  induction os generalizing f with
  | nil =>
    change (f.step o >>= fun g => .ok g) = f.step o
    cases f.step o <;> rfl
  | cons p os ih =>
    change (f.step p >>= fun g => g.runFrom (os ++ [o])) = (f.step p >>= fun g => g.runFrom os) >>= fun g => g.step o
    cases f.step p with
    | error e => rfl
    | ok g => exact ih g

/-- the registered value is assembled from what the default was assembled from and the bounds -/
theorem Registered.assembles {s : StatInst E} {os : List (DefOp E)} {v0 : s.Val} {bs : List (StatOp s.sv)}
    (h : Registered s os v0 bs) (okOp : StatOp s.sv → Prop) {L : List (StatOp s.sv)} (hL : Assembles s.sv okOp v0 L) :
    (∀ o ∈ bs, okOp o) → ∀ {f : DMap E}, DMap.run os = .ok f →
    Storable (E.layout s.ty) ∧ ∃ v, f s = some v ∧ Assembles s.sv okOp v (L ++ bs) := by
  induction h with
  | default os v =>
    intro hb f hf
    rw [DMap.run, DMap.runFrom_snoc, Res.bind_eq_ok] at hf
    obtain ⟨g, -, hg⟩ := hf
    obtain ⟨h1, h2, -⟩ := DMap.store_eq hg
    exact ⟨h1, v, h2, by simpa using hL⟩
  | min h b ih =>
    intro hb f hf
    rw [DMap.run, DMap.runFrom_snoc, Res.bind_eq_ok] at hf
    obtain ⟨g, hg, hf⟩ := hf
    obtain ⟨h1, v, h2, h3⟩ := ih hL (fun o ho => hb o (List.mem_append_left _ ho)) hg
    rw [DMap.step, Res.bind_eq_ok] at hf
    obtain ⟨w, hw, hst⟩ := hf
    rw [DMap.value, h2, Option.getD_some] at hw
    obtain ⟨-, h4, -⟩ := DMap.store_eq hst
    refine ⟨h1, w, h4, ?_⟩
    rw [← List.append_assoc]
    exact h3.op (o := .min b) (fun h => h) (hb _ (by simp)) hw
  | max h b ih =>
    intro hb f hf
    rw [DMap.run, DMap.runFrom_snoc, Res.bind_eq_ok] at hf
    obtain ⟨g, hg, hf⟩ := hf
    obtain ⟨h1, v, h2, h3⟩ := ih hL (fun o ho => hb o (List.mem_append_left _ ho)) hg
    rw [DMap.step, Res.bind_eq_ok] at hf
    obtain ⟨w, hw, hst⟩ := hf
    rw [DMap.value, h2, Option.getD_some] at hw
    obtain ⟨-, h4, -⟩ := DMap.store_eq hst
    refine ⟨h1, w, h4, ?_⟩
    rw [← List.append_assoc]
    exact h3.op (o := .max b) (fun h => h) (hb _ (by simp)) hw
  | other h o ho ih =>
    intro hb f hf
    rw [DMap.run, DMap.runFrom_snoc, Res.bind_eq_ok] at hf
    obtain ⟨g, hg, hf⟩ := hf
    obtain ⟨h1, v, h2, h3⟩ := ih hL hb hg
    have hso := fun h => ho (Eq.symm h)
    refine ⟨h1, v, ?_, h3⟩
    rw [← h2]
    cases o with
    | default u w => exact (DMap.store_eq hf).2.2 _ hso
    | min u b => rw [DMap.step, Res.bind_eq_ok] at hf; obtain ⟨w, -, hst⟩ := hf; exact (DMap.store_eq hst).2.2 _ hso
    | max u b => rw [DMap.step, Res.bind_eq_ok] at hf; obtain ⟨w, -, hst⟩ := hf; exact (DMap.store_eq hst).2.2 _ hso

variable {A : Addr E} {J : Joined E Q Ent}

/-- a query of either kind, after the entities have been checked -/
theorem registered_run (k : NumericType) (s : StatInst E)
    (hk : (⟨s.Val, s.sv⟩ : (V : Type) × StatValue V) = k.V) (os : List (DefOp E)) (f : DMap E) (d : Defaults E)
    (hf : DMap.run os = .ok f) (hd : Defaults.run A os = .ok d) (W : World E Q Ent) (hw : W.defaults = some d) (v0 : s.Val)
    (bs L : List (StatOp s.sv)) (hr : Registered s os v0 bs) (hb : ∀ o ∈ bs, (k.reading.at hk).ok o)
    (hL : Assembles s.sv (k.reading.at hk).ok v0 L) (o : Oracle E Q Ent) (cs : List (Call E Q Ent))
    (Cs : List (Prog E Q Ent (List (StatOp s.sv))))
    (hC : List.Forall₂ (fun c C => Call.Contributes s (k.reading.at hk).ok c C) cs Cs) (v : s.Val)
    (hv : (W.startValue A s >>= fun v => runCalls o cs ⟨s, v⟩ >>= fun p => p.value.read s.ty >>= fun x =>
      .ok (some x)) = (.ok (some v) : Res (Option s.Val))) (out : s.sv.Out) (he : s.sv.eval v = .ok out) :
    ∃ opss, List.Forall₂ (fun C ops => Prog.eval o C = .ok ops) Cs opss ∧
      (k.reading.at hk).Respects (L ++ bs ++ opss.flatten) out := by
  obtain ⟨hs, w, hw1, hw2⟩ := hr.assembles _ hL hb hf
  have hget : HMap.get (StatInst.eq A) d s = some (.val s.ty w) := by
    rcases DefFine.runFrom A os [] DMap.empty f (fun s => .inl ⟨rfl, rfl⟩) hf with ⟨d', hd', h1, -⟩ | ⟨h1, -⟩
    · cases (show Defaults.run A os = .ok d' from hd').symm.trans hd
      rcases h1 s with ⟨g1, g2⟩ | ⟨u, g1, g2, g3⟩ | ⟨u, o, g1, g2, g3⟩
      · rw [hw1] at g1; cases g1
      · rw [hw1] at g1; cases g1; exact g2
      · have hs' : Storable (E.layout (E.valTy s.vt)) := hs
        simp [World.startValue, World.registered, hw, Defaults.getDyn, g2, Defaults.cloned, vtClone, Buf.read,
          validate_eq, Buf.get, hs'] at hv
    · exact absurd hd (h1 d)
  rw [(C44_start W s hs).2.2 d w hw hget, Res.bind_ok] at hv
  obtain ⟨p, h1, h2⟩ := Res.bind_eq_ok.1 hv
  obtain ⟨opss, v', h3, rfl, h4⟩ := runCalls_assembles hC hw2 h1
  change ((Buf.val s.ty v').read s.ty >>= fun x => .ok (some x)) = .ok (some v) at h2
  rw [Buf.read_val hs] at h2
  cases h2
  exact ⟨opss, h3, Reading.respects_at hk k.reading (fun v ops x => k.respects v ops x) v _ out h4 he⟩

/-- C138: let a numeric stat have a registered default, with the bounds `bs` registered since, after a history of
registrations that returned.  If the sources apply operations or join values, each result of a query evaluates to a
number within all bounds: those of the default (`L`), those registered, and those of the sources (`opss`). -/
theorem C138_query (k : NumericType) (n : Nat) (e : Ent) (q : QualifierQuery Q) (s : StatInst E)
    (hk : (⟨s.Val, s.sv⟩ : (V : Type) × StatValue V) = k.V) (os : List (DefOp E)) (f : DMap E) (d : Defaults E)
    (hf : DMap.run os = .ok f) (hd : Defaults.run A os = .ok d) (hw : J.world.defaults = some d) (v0 : s.Val)
    (bs L : List (StatOp s.sv)) (hr : Registered s os v0 bs) (hb : ∀ o ∈ bs, (k.reading.at hk).ok o)
    (hL : Assembles s.sv (k.reading.at hk).ok v0 L) (Cs : List (Prog E Q Ent (List (StatOp s.sv))))
    (hC : List.Forall₂ (fun c C => Call.Contributes s (k.reading.at hk).ok c C) (J.statCalls e q) Cs)
    (v : s.Val) (hv : J.answer A n (.stat e q s) = .ok (some v)) (out : s.sv.Out) (he : s.sv.eval v = .ok out) :
    ∃ opss, List.Forall₂ (fun C ops => Prog.eval (J.answer A (n - 1)) C = .ok ops) Cs opss ∧
      (k.reading.at hk).Respects (L ++ bs ++ opss.flatten) out := by
  have hs := (hr.assembles _ hL hb hf).1
  cases n with
  | zero => rw [J.answer_zero] at hv; cases hv
  | succ n =>
    rw [J.answer_succ] at hv
    simp only [Joined.ideal, validate_eq, hs, if_true, Res.bind_ok] at hv
    split at hv
    · exact registered_run k s hk os f d hf hd J.world hw v0 bs L hr hb hL _ _ Cs hC v hv out he
    · cases hv

/-- C138, for relation queries -/
theorem C138_relation (k : NumericType) (n : Nat) (a b : Ent) (q : QualifierQuery Q) (s : StatInst E)
    (hk : (⟨s.Val, s.sv⟩ : (V : Type) × StatValue V) = k.V) (os : List (DefOp E)) (f : DMap E) (d : Defaults E)
    (hf : DMap.run os = .ok f) (hd : Defaults.run A os = .ok d) (hw : J.world.defaults = some d) (v0 : s.Val)
    (bs L : List (StatOp s.sv)) (hr : Registered s os v0 bs) (hb : ∀ o ∈ bs, (k.reading.at hk).ok o)
    (hL : Assembles s.sv (k.reading.at hk).ok v0 L) (Cs : List (Prog E Q Ent (List (StatOp s.sv))))
    (hC : List.Forall₂ (fun c C => Call.Contributes s (k.reading.at hk).ok c C) (J.relationCalls a b q) Cs)
    (v : s.Val) (hv : J.answer A n (.relation a b q s) = .ok (some v)) (out : s.sv.Out) (he : s.sv.eval v = .ok out) :
    ∃ opss, List.Forall₂ (fun C ops => Prog.eval (J.answer A (n - 1)) C = .ok ops) Cs opss ∧
      (k.reading.at hk).Respects (L ++ bs ++ opss.flatten) out := by
  have hs := (hr.assembles _ hL hb hf).1
  cases n with
  | zero => rw [J.answer_zero] at hv; cases hv
  | succ n =>
    rw [J.answer_succ] at hv
    simp only [Joined.ideal, validate_eq, hs, if_true, Res.bind_ok] at hv
    split at hv
    · exact registered_run k s hk os f d hf hd J.world hw v0 bs L hr hb hL _ _ Cs hC v hv out he
    · cases hv

/-- C138, when the last registration is a minimum of a number: no source can push the result below it -/
theorem C138_floor (k : NumericType) (n : Nat) (e : Ent) (q : QualifierQuery Q) (s : StatInst E)
    (hk : (⟨s.Val, s.sv⟩ : (V : Type) × StatValue V) = k.V) (os : List (DefOp E)) (f : DMap E) (d : Defaults E)
    (b : s.sv.BoundsT) (hf : DMap.run (os ++ [.min s b]) = .ok f) (hd : Defaults.run A (os ++ [.min s b]) = .ok d)
    (hw : J.world.defaults = some d) (v0 : s.Val) (bs L : List (StatOp s.sv)) (hr : Registered s os v0 bs)
    (hb : ∀ o ∈ bs ++ [.min b], (k.reading.at hk).ok o) (hL : Assembles s.sv (k.reading.at hk).ok v0 L)
    (hC : ∀ c ∈ J.statCalls e q, ∃ C, Call.Contributes s (k.reading.at hk).ok c C)
    (v : s.Val) (hv : J.answer A n (.stat e q s) = .ok (some v)) (out : s.sv.Out) (he : s.sv.eval v = .ok out)
    (y : (k.reading.at hk).B) (hy : (k.reading.at hk).bound b = some y) :
    ∃ o, (k.reading.at hk).out out = some o ∧ (k.reading.at hk).order.le y o := by
  obtain ⟨Cs, hCs⟩ := forall₂_of_forall _ hC
  obtain ⟨opss, -, h⟩ := C138_query k n e q s hk _ f d hf hd hw v0 _ L (hr.min b) hb hL Cs hCs v hv out he
  obtain ⟨o, ho⟩ := h.number
  exact ⟨o, ho, h.lower o b y ho (by simp) hy⟩

/-! ### the hypotheses can be met -/

/-- a program with one stat type, of values `StatFloat<f32>` -/
abbrev floatEnv : Env where
  U := Unit
  El _ := StatFloat Fl
  sv _ := statFloat (Fl.ops .f32)
  layout _ := ⟨16, 4⟩
  opLayout _ := ⟨8, 4⟩
  S := Unit
  valTy s := s
  statLayout _ := ⟨1, 1⟩
  Sel _ := Nat
  asIndex x := x
  fromIndex _ i := .ok i
  statName x := "float" ++ toString x
  values _ := [0]

def floatAddr : Addr floatEnv := ⟨fun _ => 1000, fun {_ _} _ => rfl⟩
abbrev floatStat : StatInst floatEnv := ⟨(), 0⟩

/-- user code: `if let Some((_, v)) = pair.cast::<Stat>() { v.add(k) }` -/
def floatAdd (k : Fl) : Call floatEnv (BitVec 8) Nat := fun p => Prog.lift do
  let o ← p.cast floatAddr ()
  match o with
  | some (_, v) => do
    let v' ← (statFloat (Fl.ops .f32)).add v k
    .ok (p.write () v')
  | none => .ok p

/-- the default 1, then a minimum of 3 and a maximum of 10 -/
def floatOps : List (DefOp floatEnv) :=
  [.default floatStat ((statFloat (Fl.ops .f32)).fromBase (.fin 1)), .min floatStat (.fin 3), .max floatStat (.fin 10)]

/-- one entity with one global source that adds `k` -/
def floatJoined (d : Defaults floatEnv) (k : Fl) : Joined floatEnv (BitVec 8) Nat where
  world :=
    { isStat := fun e => e == 0, children := fun _ => none, defaults := some d, relations := some [fun _ _ => floatAdd k],
      cached := true, placeholder := 9 }
  comp := .unit
  child := .unit
  rel := .unit

/-- whatever the source adds, even an infinity or NaN, the result is between 3 and 10 -/
example (d : Defaults floatEnv) (hd : Defaults.run floatAddr floatOps = .ok d) (k : Fl) (n : Nat) (v : StatFloat Fl)
    (hv : (floatJoined d k).answer floatAddr n (.stat 0 (.aggregate 0) floatStat) = .ok (some v)) (out : Fl)
    (he : (statFloat (Fl.ops .f32)).eval v = .ok out) : ∃ q : ℚ, out = .fin q ∧ 3 ≤ q ∧ q ≤ 10 := by
  have hC : List.Forall₂ (fun c C => Call.Contributes floatStat (fun _ => True) c C)
      ((floatJoined d k).statCalls 0 (.aggregate 0)) [.ret [.add k]] := by
    refine .cons ?_ .nil
    intro o v L p' hv hp
    change StatFloat Fl at v
    change (Prog.lift ((statFloat (Fl.ops .f32)).add v k >>= fun v' =>
      .ok (Pair.write ⟨floatStat, .val () v⟩ () v'))).eval o = .ok p' at hp
    cases h : (statFloat (Fl.ops .f32)).add v k with
    | error x => rw [h] at hp; cases hp
    | ok v' =>
      rw [h] at hp
      cases hp
      exact ⟨_, v', rfl, rfl, hv.op (fun h => h) trivial h⟩
  have hr : Registered floatStat floatOps ((statFloat (Fl.ops .f32)).fromBase (.fin 1))
      [.min (.fin 3), .max (.fin 10)] := 
    Registered.max (s := floatStat) (Registered.min (s := floatStat) (Registered.default (s := floatStat) [] _) (Fl.fin 3))
      (Fl.fin 10)
  obtain ⟨opss, h1, h2⟩ := C138_query (A := floatAddr) (J := floatJoined d k) (.float .f32) n 0 (.aggregate 0) floatStat rfl
    floatOps _ d rfl hd rfl _ _ [.base (.fin 1)] hr (fun _ _ => trivial)
    ⟨.base (.fin 1), trivial, fun _ _ => trivial, .refl _, rfl⟩ _ hC v hv out he
  cases h1 with
  | cons ha hb =>
    cases ha
    cases hb
    obtain ⟨o, ho⟩ := h2.number
    have hl := h2.lower o (.fin 3) _ ho (by simp) rfl
    have hu := h2.upper o (.fin 10) _ ho (by simp) rfl (by
        change (((-Fmt.f32.maxVal : ℚ) : WithTop ℚ) : WithBot (WithTop ℚ)) ≤ (((10 : ℚ) : WithTop ℚ) : WithBot (WithTop ℚ))
        rw [WithBot.coe_le_coe, WithTop.coe_le_coe]
        norm_num [Fmt.maxVal, Fmt.f32]) (by
      intro a z ha hz
      simp only [List.mem_append, List.mem_cons, List.flatten_cons, List.flatten_nil,
        List.not_mem_nil, or_false, reduceCtorEq, false_or, StatOp.min.injEq] at ha
      subst ha
      cases hz
      change (((3 : ℚ) : WithTop ℚ) : WithBot (WithTop ℚ)) ≤ (((10 : ℚ) : WithTop ℚ) : WithBot (WithTop ℚ))
      rw [WithBot.coe_le_coe, WithTop.coe_le_coe]
      norm_num)
    change out.ext = some o at ho
    change (((3 : ℚ) : WithTop ℚ) : WithBot (WithTop ℚ)) ≤ o at hl
    change @LE.le (WithBot (WithTop ℚ)) _ o (((10 : ℚ) : WithTop ℚ) : WithBot (WithTop ℚ)) at hu
    cases out with
    | nan => cases ho
    | ninf => cases ho; simp at hl
    | pinf =>
      cases ho
      rw [WithBot.coe_le_coe, top_le_iff] at hu
      exact absurd hu (WithTop.coe_ne_top)
    | fin q =>
      cases ho
      rw [WithBot.coe_le_coe, WithTop.coe_le_coe] at hl hu
      exact ⟨q, rfl, hl, hu⟩

/-- and there is such a registry and such an answer: here 1 + NaN, which evaluates to 10 -/
example : ∃ d v, Defaults.run floatAddr floatOps = .ok d ∧
    (floatJoined d .nan).answer floatAddr 1 (.stat 0 (.aggregate 0) floatStat) = .ok (some v) ∧
    (statFloat (Fl.ops .f32)).eval v = .ok (.fin 10) :=
  ⟨_, _, rfl, rfl, by decide +kernel⟩

end BSQ
