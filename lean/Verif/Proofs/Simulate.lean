import Verif.Spec.Simulate
import Verif.Proofs.Frac
/-! Helper lemmas: checked arithmetic is refined by every other overflow convention. -/
namespace BSQ

theorem Agrees.refl {α : Type} (x : Res α) : Agrees x x := fun _ h => h

theorem Agrees.of_eq {α : Type} {x y : Res α} (h : x = y) : Agrees x y := fun _ h' => h ▸ h'

theorem Agrees.bind {α β : Type} {x y : Res α} {f g : α → Res β} (h : Agrees x y)
    (hf : ∀ a, Agrees (f a) (g a)) : Agrees (x >>= f) (y >>= g) := by
  intro v e
  rw [Res.bind_eq_ok] at e
  obtain ⟨a, ha, e⟩ := e
  rw [h a ha]
  exact hf a v e

theorem Agrees.ite {α : Type} {p : Prop} [Decidable p] {x y x' y' : Res α} (h : Agrees x x')
    (h' : Agrees y y') : Agrees (if p then x else y) (if p then x' else y') := by
  split <;> assumption

namespace NumTy
variable (t : NumTy)

theorem fit_agrees (x : Int) : Agrees (t.checked.fit x) (t.fit x) := by
  intro v h
  rw [fit_panic (t := t.checked) rfl] at h
  obtain ⟨rfl, h⟩ := h
  exact fit_inRange h

theorem add_agrees (a b : Int) : Agrees (t.checked.add a b) (t.add a b) := t.fit_agrees _
theorem sub_agrees (a b : Int) : Agrees (t.checked.sub a b) (t.sub a b) := t.fit_agrees _
theorem mul_agrees (a b : Int) : Agrees (t.checked.mul a b) (t.mul a b) := t.fit_agrees _
end NumTy

namespace Frac
variable (t : NumTy)

theorem gcd_agrees (a b : Int) : Agrees (gcd t.checked a b) (gcd t a b) := t.fit_agrees _

theorem lcm_agrees (a b : Int) : Agrees (lcm t.checked a b) (lcm t a b) :=
  (gcd_agrees t a b).bind fun _ => (Agrees.refl _).bind fun _ => (t.mul_agrees _ _).bind fun _ => t.fit_agrees _

theorem reduce_agrees (a : Frac) : Agrees (reduce t.checked a) (reduce t a) :=
  Agrees.ite (Agrees.refl _) <| Agrees.ite (Agrees.refl _) <| Agrees.ite (Agrees.refl _) <|
    (gcd_agrees t _ _).bind fun _ => (Agrees.refl _).bind fun _ => (Agrees.refl _).bind fun _ =>
      Agrees.ite ((t.sub_agrees _ _).bind fun _ => (t.sub_agrees _ _).bind fun _ => Agrees.refl _)
        (Agrees.refl _)

theorem mul_agrees (a b : Frac) : Agrees (mul t.checked a b) (mul t a b) :=
  (gcd_agrees t _ _).bind fun _ => (gcd_agrees t _ _).bind fun _ =>
    (Agrees.refl _).bind fun _ => (Agrees.refl _).bind fun _ => (t.mul_agrees _ _).bind fun _ =>
    (Agrees.refl _).bind fun _ => (Agrees.refl _).bind fun _ => (t.mul_agrees _ _).bind fun _ => reduce_agrees t _

theorem addSub_agrees {op op' : Int → Int → Res Int} (h : ∀ a b, Agrees (op a b) (op' a b)) (a b : Frac) :
    Agrees (addSub t.checked op a b) (addSub t op' a b) :=
  Agrees.ite ((h _ _).bind fun _ => reduce_agrees t _) <|
    (lcm_agrees t _ _).bind fun _ => (Agrees.refl _).bind fun _ => (t.mul_agrees _ _).bind fun _ =>
      (Agrees.refl _).bind fun _ => (t.mul_agrees _ _).bind fun _ => (h _ _).bind fun _ => reduce_agrees t _

theorem add_agrees (a b : Frac) : Agrees (add t.checked a b) (add t a b) := addSub_agrees t t.add_agrees a b
theorem sub_agrees (a b : Frac) : Agrees (sub t.checked a b) (sub t a b) := addSub_agrees t t.sub_agrees a b

theorem floor_agrees (a : Frac) : Agrees (floor t.checked a) (floor t a) :=
  Agrees.ite ((t.sub_agrees _ _).bind fun _ => (t.add_agrees _ _).bind fun _ => Agrees.refl _) (Agrees.refl _)

theorem ceil_agrees (a : Frac) : Agrees (ceil t.checked a) (ceil t a) :=
  Agrees.ite (Agrees.refl _) ((t.add_agrees _ _).bind fun _ => (t.sub_agrees _ _).bind fun _ => Agrees.refl _)

theorem round_agrees (a : Frac) : Agrees (round t.checked a) (round t a) :=
  Agrees.bind ((Agrees.refl _).bind fun _ => Agrees.ite (sub_agrees t _ _) (Agrees.refl _)) fun _ =>
    Agrees.bind ((Agrees.refl _).bind fun _ => Agrees.ite (Agrees.refl _) (t.add_agrees _ _)) fun _ =>
      (Agrees.refl _).bind fun _ =>
        Agrees.ite (Agrees.ite (sub_agrees t _ _) (add_agrees t _ _)) (Agrees.refl _)

theorem apply_agrees (R : Rounding) (a : Frac) :
    Agrees (R.apply (ops t.checked) a) (R.apply (ops t) a) := by
  cases R with
  | truncate => exact Agrees.refl _
  | floor => exact floor_agrees t a
  | ceil => exact ceil_agrees t a
  | round => exact round_agrees t a
  | truncateSigned =>
    exact Agrees.ite (Agrees.refl _) <|
      Agrees.ite ((Agrees.refl _).bind fun x =>
        show Agrees (sub t.checked ⟨0, 1⟩ ⟨1, 1⟩ >>= fun m => .ok (min x m))
          (sub t ⟨0, 1⟩ ⟨1, 1⟩ >>= fun m => .ok (min x m)) from
        (sub_agrees t _ _).bind fun _ => Agrees.refl _) (Agrees.refl _)
end Frac

/-- it suffices to compare the operations one by one -/
theorem Simulates.of_ops {V : Type} {D D' : StatValue V} (T : Retype D D') (hd : D'.default = D.default)
    (hj : ∀ a b, Agrees (D.join a b) (D'.join a b)) (ha : ∀ a x, Agrees (D.add a x) (D'.add a (T.add x)))
    (hm : ∀ a x, Agrees (D.mul a x) (D'.mul a (T.mul x))) (ho : ∀ a x, Agrees (D.or a x) (D'.or a (T.bit x)))
    (hn : ∀ a x, Agrees (D.not a x) (D'.not a (T.bit x)))
    (hmin : ∀ a x, Agrees (D.min a x) (D'.min a (T.bounds x)))
    (hmax : ∀ a x, Agrees (D.max a x) (D'.max a (T.bounds x)))
    (hb : ∀ b, D'.fromBase (T.base b) = D.fromBase b)
    (he : ∀ v o, D.eval v = .ok o → D'.eval v = .ok (T.out o)) : Simulates T where
  evaluates := he
  assembles tr := by
    have hw : ∀ (o : StatOp D) v, Agrees (o.writeTo v) ((T.op o).writeTo v) := by
      intro o v
      cases o with
      | add x => exact ha v x
      | mul x => exact hm v x
      | or x => exact ho v x
      | not x => exact hn v x
      | min x => exact hmin v x
      | max x => exact hmax v x
      | base x => exact Agrees.of_eq (congrArg Except.ok (hb x).symm)
    induction tr with
    | dflt => intro v h; exact (congrArg Except.ok hd).trans h
    | base b => intro v h; exact (congrArg Except.ok (hb b)).trans h
    | op t o ih => exact Agrees.bind ih fun a => hw o a
    | join l r ihl ihr => exact Agrees.bind ihl fun a => Agrees.bind ihr fun b => hj a b

end BSQ
