import Verif.Props.Cache
import Verif.Props.Cast
/-!
# Exact conditions: C36, C38, C51
-/
set_option linter.unusedSectionVars false
namespace BSQ
variable {E : Env} {Q Ent : Type} [DecidableEq Q] [DecidableEq Ent] {A : Addr E}

/-! ### C36 -/

/-- **C36, exactly**: for a pair whose value can be stored, `into_result::<T>` tells whether its stat is of type `T`,
and `cast::<T>` says no for other types, if and only if the stat type `T` itself fits in a buffer. -/
theorem C36_iff (s : StatInst E) (v : s.Val) (T : E.S) (hv : Storable (E.layout s.ty)) :
    ((∀ h : T = s.vt, (Pair.typed s v).intoResult A T = .ok (some (h ▸ v))) ∧
     (T ≠ s.vt → (Pair.typed s v).intoResult A T = .ok none ∧ (Pair.typed s v).cast A T = .ok none)) ↔
    Storable (E.statLayout T) := by
  constructor
  · rintro ⟨h1, h2⟩
    by_contra hT
    obtain ⟨r1, r3⟩ : (Pair.typed s v).cast A T = .error .panic ∧
        (Pair.typed s v).intoResult A T = .error .panic := by
      constructor
      · simp [Pair.cast, validate_eq, hT]
      · simp [Pair.intoResult, validate_eq, hT]
    by_cases h : T = s.vt
    · have := h1 h
      rw [r3] at this
      cases this
    · have := (h2 h).2
      rw [r1] at this
      cases this
  · intro hT
    obtain ⟨h1, h2⟩ := C36_intoResult_partial A s v T hT hv
    exact ⟨h1, fun h => ⟨h2 h, (C36_cast_partial A s v T hT).2 h⟩⟩

/-- C36: and so does `is_then_cast` for a stat of type `T`, on a pair about that stat -/
theorem C36_isThenCast_iff {T : E.S} (x : E.Sel T) (v : (E.asEntry x).Val) :
    (Pair.typed (E.asEntry x) v).isThenCast A x = .ok (some v) ↔ Storable (E.statLayout T) := by
  constructor
  · intro h
    by_contra hT
    rw [(C36_refuted_big_stat A (Pair.typed (E.asEntry x) v) T x hT).2.1] at h
    cases h
  · exact fun hT => (C36_isThenCast_partial A x hT).1 v

/-! ### C38 -/

/-- reaching the arms after those that do not match -/
theorem matchStat_reaches {σ : Type} (last) (pre rest : List (Arm E σ)) (s : StatInst E) (v : s.Val) (st : σ)
    (hpre : ∀ b ∈ pre, ¬ b.Matches s) :
    (∀ b ∈ pre, Storable (E.statLayout b.statTy)) ∧
      matchStat A last (pre ++ rest) st (Pair.typed s v) = matchStat A last rest st (Pair.typed s v) ∨
    (¬ ∀ b ∈ pre, Storable (E.statLayout b.statTy)) ∧
      matchStat A last (pre ++ rest) st (Pair.typed s v) = .error .panic := by
  induction pre with
  | nil => exact .inl ⟨by simp, rfl⟩
  | cons b pre ih =>
    by_cases hb : Storable (E.statLayout b.statTy)
    · have hk := matchStat_skip A last [b] (pre ++ rest) s v st
        (by simpa using hpre b (by simp)) (by simpa using hb)
      rw [List.singleton_append] at hk
      rw [List.cons_append, hk]
      rcases ih (fun b h => hpre b (by simp [h])) with ⟨h1, h2⟩ | ⟨h1, h2⟩
      · exact .inl ⟨by simpa [hb] using h1, h2⟩
      · exact .inr ⟨by simpa [hb] using h1, h2⟩
    · refine .inr ⟨fun h => hb (h b (by simp)), ?_⟩
      exact C38_refuted_big_stat A last [] (pre ++ rest) b s v st (by simp) (by simp) hb

/-- **C38, exactly**: when no arm matches and there is no `_` arm, nothing happens if and only if all the stat types
mentioned fit in a buffer -/
theorem C38_no_match_iff {σ : Type} (arms : List (Arm E σ)) (s : StatInst E) (v : s.Val) (st : σ)
    (hno : ∀ b ∈ arms, ¬ b.Matches s) :
    matchStat A none arms st (Pair.typed s v) = .ok (st, Pair.typed s v) ↔
      ∀ b ∈ arms, Storable (E.statLayout b.statTy) := by
  rcases matchStat_reaches (A := A) none arms [] s v st hno with ⟨h1, h2⟩ | ⟨h1, h2⟩
  · rw [List.append_nil] at h2
    rw [h2]
    exact iff_of_true rfl h1
  · rw [List.append_nil] at h2
    rw [h2]
    exact iff_of_false (by simp) h1

/-- **C38, exactly**: the first matching arm, for a stat type, runs if and only if the stat types of this arm and the
arms before it fit in a buffer.  Later arms do not matter. -/
theorem C38_first_match_type_iff {σ : Type} (last) (pre post : List (Arm E σ)) (s : StatInst E) (v : s.Val) (st : σ)
    (body : σ → E.Sel s.vt → s.Val → Res (σ × s.Val)) (hpre : ∀ b ∈ pre, ¬ b.Matches s) (x : E.Sel s.vt)
    (hx : E.fromIndex s.vt s.index = .ok x) (o : σ × s.Val) (ho : body st x v = .ok o) :
    matchStat A last (pre ++ .ty s.vt body :: post) st (Pair.typed s v) = .ok (o.1, Pair.typed s o.2) ↔
      (∀ b ∈ pre, Storable (E.statLayout b.statTy)) ∧ Storable (E.statLayout s.vt) := by
  rcases matchStat_reaches (A := A) last pre (.ty s.vt body :: post) s v st hpre with ⟨h1, h2⟩ | ⟨h1, h2⟩
  · by_cases hT : Storable (E.statLayout s.vt)
    · rw [C38_first_match_type_partial A last pre post s v st body hpre h1 hT, hx, Res.bind_ok, ho, Res.bind_ok]
      exact iff_of_true rfl ⟨h1, hT⟩
    · rw [C38_refuted_big_stat A last pre post (.ty s.vt body) s v st hpre h1 hT]
      exact iff_of_false (by simp) (fun h => hT h.2)
  · rw [h2]
    exact iff_of_false (by simp) (fun h => h1 h.1)

/-- C38, exactly: the same for an arm for one stat -/
theorem C38_first_match_stat_iff {σ : Type} (last) (pre post : List (Arm E σ)) {T : E.S} (x : E.Sel T)
    (v : (E.asEntry x).Val) (st : σ) (body : σ → (E.asEntry x).Val → Res (σ × (E.asEntry x).Val))
    (hpre : ∀ b ∈ pre, ¬ b.Matches (E.asEntry x)) (o : σ × (E.asEntry x).Val) (ho : body st v = .ok o) :
    matchStat A last (pre ++ .stat x body :: post) st (Pair.typed (E.asEntry x) v) =
        .ok (o.1, Pair.typed (E.asEntry x) o.2) ↔
      (∀ b ∈ pre, Storable (E.statLayout b.statTy)) ∧ Storable (E.statLayout T) := by
  rcases matchStat_reaches (A := A) last pre (.stat x body :: post) (E.asEntry x) v st hpre with ⟨h1, h2⟩ | ⟨h1, h2⟩
  · by_cases hT : Storable (E.statLayout T)
    · rw [C38_first_match_stat_partial A last pre post x v st body hpre h1 hT, ho, Res.bind_ok]
      exact iff_of_true rfl ⟨h1, hT⟩
    · rw [C38_refuted_big_stat A last pre post (.stat x body) (E.asEntry x) v st hpre h1 hT]
      exact iff_of_false (by simp) (fun h => hT h.2)
  · rw [h2]
    exact iff_of_false (by simp) (fun h => h1 h.1)

/-! ### C51 -/

/-- **C51, exactly**: two well-behaved queriers over one world with a cache.  Queries through the second give their
uncached results whatever queries and clears were made through the first if and only if each result of the first is a
result of the second. -/
theorem C51_iff (J J' : Joined E Q Ent) (hJ : J.Honest A) (hJ' : J'.Honest A) (hw : J.world = J'.world)
    (hc : J.world.cached = true) :
    (∀ evs : List (Event E Q Ent), (∀ ev ∈ evs, ev.isQuery = true ∨ ev = .clear) → ∀ n r,
      Faithful A J' n r ((J'.handle A n r).run A (history A J [] evs).2).1) ↔
    ∀ e q s v n, J.answer A n (.stat e q s) = .ok (some v) →
      ∃ m, J'.answer A m (.stat e q s) = .ok (some v) := by
  constructor
  · intro h e q s v n hv
    have hf := (hJ.right.run_valid (c := []) (fun x hx => by cases hx) n (.stat e q s)).1
    have hr : ((J.handle A n (.stat e q s)).run A []).1 = .ok (some v) := by
      rw [hf.1 (by rw [hv]; exact fun h => by cases h), hv]
    have he : J.world.isStat e = true := by
      by_contra hn
      rw [Bool.not_eq_true] at hn
      cases n with
      | zero => cases hr
      | succ n =>
        by_cases hs : Storable (E.layout s.ty)
        · rw [(C43_stat_unmarked A J n [] e q s hs hn).1] at hr
          cases hr
        · rw [(C43_unstorable_panics A J n [] e e q s hs).1] at hr
          cases hr
    have hst := C49_stays_partial J [] J hJ.safe n e q s v he hc hr []
      (fun _ h => by cases h) trivial J' (hw ▸ he) (hw ▸ hc) 0
    have := h [.query n (.stat e q s)] (by simp [Event.isQuery]) 1 (.stat e q s)
    have hq : (history A J [] [.query n (.stat e q s)]).2 = ((J.handle A n (.stat e q s)).run A []).2 := rfl
    rw [hq] at this
    change ((J'.handle A (0 + 1) (.stat e q s)).run A ((J.handle A n (.stat e q s)).run A []).2).1 = _ at hst
    rw [Nat.zero_add] at hst
    rw [hst] at this
    exact this.2 (fun h => by cases h)
  · exact fun h evs hq n r => C51_agreeing_partial J J' hJ.right hJ'.right h evs hq n r

/-- C51: the two demo queriers meet the hypotheses and do not agree -/
example : demoJoined.Honest demoAddr ∧ demoOther.Honest demoAddr ∧ demoJoined.world = demoOther.world ∧
    demoJoined.world.cached = true ∧
    demoJoined.answer demoAddr 1 (.stat 0 demoQ (demoInt 0)) =
      (.ok (some ⟨211, -2147483648, 2147483647, 1⟩) : Res (Option StatInt)) ∧
    demoOther.answer demoAddr 1 (.stat 0 demoQ (demoInt 0)) =
      (.ok (some ⟨1, -2147483648, 2147483647, 1⟩) : Res (Option StatInt)) :=
  ⟨demoJoined_honest, demoOther_honest, rfl, rfl, rfl, rfl⟩

end BSQ
