import Verif.Props.Misc
/-!
# C29, exactly: when is writing an operation the same as joining the stat built from it?
-/
namespace BSQ

/-- C29 for `Prioritized`, exactly: writing an operation and joining the stat built from it agree if and only if the
value does not yield to a value of priority `0`, or is the default anyway. -/
theorem C29_prioritized_iff (T : Type) (d : T) (last : Bool) (o : StatOp (prioritized T d last)) (ho : ¬ o.IsBase)
    (v : Prioritized T) :
    o.writeTo v = (o.intoStat >>= fun s => (prioritized T d last).join v s) ↔
      ¬ v.Yields last ⟨d, 0⟩ ∨ v.value = d := by
  have key : (Except.ok v : Res (Prioritized T)) =
      (prioritized T d last).join v (prioritized T d last).default ↔ ¬ v.Yields last ⟨d, 0⟩ ∨ v.value = d := by
    obtain ⟨x, p⟩ := v
    cases last <;> simp only [Prioritized.Yields, Bool.false_eq_true, if_false, if_true, Except.ok.injEq] <;> split <;>
      simp_all
  cases o with
  | or x => exact key
  | not x => exact key
  | base b => exact absurd True.intro ho
  | add x => cases x
  | mul x => cases x
  | min x => cases x
  | max x => cases x

/-- C29 for `StatIntPercent`, exactly: the two never agree.  When neither overflows, joining always gives an addend that
is one higher, whatever the value, operation, rounding and scale. -/
theorem C29_int_percent_never (t : NumTy) (h : t.ovf = .panic) (R : Rounding) (S : Int)
    (o : StatOp (statIntPercent t R S)) (ho : ¬ o.IsBase) (v w j : StatIntPercent) (hw : o.writeTo v = .ok w)
    (hj : (o.intoStat >>= fun s => (statIntPercent t R S).join v s) = .ok j) : j.addend = w.addend + 1 := by
  have hadd : ∀ a b c : Int, t.add a b = .ok c → c = a + b := by
    intro a b c hc
    simp only [NumTy.add, NumTy.fit, h] at hc
    split at hc
    · cases hc; rfl
    · cases hc
  have hjoin : ∀ s : StatIntPercent, (statIntPercent t R S).join v s = .ok j → j.addend = v.addend + s.addend := by
    intro s hs
    simp only [bind, Except.bind] at hs
    split at hs
    · cases hs
    · rename_i a ha
      split at hs
      · cases hs
      · cases hs; exact hadd _ _ _ ha
  have hwrite : ∃ c : Int, ∀ v w : StatIntPercent, o.writeTo v = .ok w → w.addend = v.addend + c := by
    cases o with
    | or x => cases x
    | not x => cases x
    | base b => exact absurd True.intro ho
    | add a =>
      refine ⟨a, fun v w hv => ?_⟩
      simp only [StatOp.writeTo, bind, Except.bind] at hv
      split at hv
      · cases hv
      · rename_i a ha
        cases hv; exact hadd _ _ _ ha
    | mul m =>
      refine ⟨0, fun v w hv => ?_⟩
      simp only [StatOp.writeTo, bind, Except.bind] at hv
      repeat' split at hv
      all_goals first | (cases hv; done) | (cases hv; simp)
    | min b => exact ⟨0, fun v w hv => by cases hv; simp⟩
    | max b => exact ⟨0, fun v w hv => by cases hv; simp⟩
  obtain ⟨c, hc⟩ := hwrite
  cases hs : o.intoStat with
  | error e => rw [hs] at hj; cases hj
  | ok s =>
    rw [hs] at hj
    have h1 : s.addend = 1 + c := hc _ _ hs
    have h2 := hjoin s hj
    have h3 := hc v w hw
    omega

/-- C29: neither side overflows for a base of 10 and any of these -/
example : let D := statIntPercent ⟨.i32, .prim, .debug⟩ .truncate 100
    ((StatOp.add 5 : StatOp D).writeTo (D.fromBase 10)).toOption.isSome ∧
    (((StatOp.add 5 : StatOp D).intoStat >>= fun s => D.join (D.fromBase 10) s)).toOption.isSome ∧
    ((StatOp.mul 150 : StatOp D).writeTo (D.fromBase 10)).toOption.isSome ∧
    (((StatOp.mul 150 : StatOp D).intoStat >>= fun s => D.join (D.fromBase 10) s)).toOption.isSome := by
  decide +kernel

end BSQ
