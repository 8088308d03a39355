import Verif.Proofs.Unordered
/-!
Helper lemmas: one induction for every numeric stat.  A `NumModel` reads a stat value as an addend, a
multiplier and two bounds of exact types and says each operation acts on these readings as its contribution
says; every assembled value then carries the total, product and bounds of its contributions.
-/
namespace BSQ
open Contrib

structure NumModel {V : Type} (D : StatValue V) (A M B : Type) [AddCommMonoid A] [CommMonoid M]
    [LinearOrder B] where
  ok : V → Prop
  okOp : StatOp D → Prop
  contrib : StatOp D → Contrib A M B
  addend : V → A
  mult : V → M
  lo : V → B
  hi : V → B
  lo0 : B
  hi0 : B
  dflt : ok D.default ∧ addend D.default = 0 ∧ mult D.default = 1 ∧ lo D.default = lo0 ∧ hi D.default = hi0
  base : ∀ b, okOp (.base b) → ok (D.fromBase b) ∧
    addend (D.fromBase b) = total [contrib (.base b)] ∧ mult (D.fromBase b) = product [contrib (.base b)] ∧
    lo (D.fromBase b) = floorOf lo0 [contrib (.base b)] ∧ hi (D.fromBase b) = capOf hi0 [contrib (.base b)]
  step : ∀ o v v', ¬ o.IsBase → okOp o → ok v → o.writeTo v = .ok v' → ok v' ∧
    addend v' = addend v + total [contrib o] ∧ mult v' = mult v * product [contrib o] ∧
    lo v' = floorOf (lo v) [contrib o] ∧ hi v' = capOf (hi v) [contrib o]
  join : ∀ a b c, ok a → ok b → D.join a b = .ok c → ok c ∧
    addend c = addend a + addend b ∧ mult c = mult a * mult b ∧
    lo c = max (lo a) (lo b) ∧ hi c = min (hi a) (hi b)

theorem Contrib.floorOf_snoc {A M B : Type} [LinearOrder B] (lo : B) (L : List (Contrib A M B)) (c : Contrib A M B) :
    floorOf lo (L ++ [c]) = floorOf (floorOf lo L) [c] := by
  induction L with
  | nil => rfl
  | cons d L ih => cases c <;> cases d <;> simp_all [floorOf, max_left_comm]

theorem Contrib.capOf_snoc {A M B : Type} [LinearOrder B] (hi : B) (L : List (Contrib A M B)) (c : Contrib A M B) :
    capOf hi (L ++ [c]) = capOf (capOf hi L) [c] := by
  induction L with
  | nil => rfl
  | cons d L ih => cases c <;> cases d <;> simp_all [capOf, min_left_comm]

namespace NumModel
variable {V : Type} {D : StatValue V} {A M B : Type} [AddCommMonoid A] [CommMonoid M] [LinearOrder B]
variable (N : NumModel D A M B)

/-- what a value built from the contributions `C` looks like -/
structure Rep (v : V) (C : List (Contrib A M B)) : Prop where
  ok : N.ok v
  addend : N.addend v = total C
  mult : N.mult v = product C
  lo : N.lo v = floorOf N.lo0 C
  hi : N.hi v = capOf N.hi0 C

theorem rep (t : Tree D) (v : V) (hr : t.NoReset) (hok : ∀ o ∈ t.leaves, N.okOp o) (h : t.run = .ok v) :
    N.Rep v (t.leaves.map N.contrib) := by
  refine Tree.run_rep (fun v L => N.Rep v (L.map N.contrib)) N.okOp ?_ ?_ ?_ ?_ t v hr hok h
  · obtain ⟨h1, h2, h3, h4, h5⟩ := N.dflt
    exact ⟨h1, h2, h3, h4, h5⟩
  · intro b hb
    obtain ⟨h1, h2, h3, h4, h5⟩ := N.base b hb
    exact ⟨h1, h2, h3, h4, h5⟩
  · intro v L o v' hnb hok hrep h
    obtain ⟨h1, h2, h3, h4, h5⟩ := N.step o v v' hnb hok hrep.ok h
    rw [List.map_append, List.map_singleton]
    exact ⟨h1, by rw [total_append, h2, hrep.addend], by rw [product_append, h3, hrep.mult],
      by rw [floorOf_snoc, h4, hrep.lo], by rw [capOf_snoc, h5, hrep.hi]⟩
  · intro a b L K v ha hb h
    obtain ⟨h1, h2, h3, h4, h5⟩ := N.join a b v ha.ok hb.ok h
    rw [List.map_append]
    exact ⟨h1, by rw [total_append, h2, ha.addend, hb.addend], by rw [product_append, h3, ha.mult, hb.mult],
      by rw [floorOf_append, h4, ha.lo, hb.lo], by rw [capOf_append, h5, ha.hi, hb.hi]⟩

/-- values are determined by their readings -/
def Inj : Prop := ∀ a b, N.ok a → N.ok b → N.addend a = N.addend b → N.mult a = N.mult b →
  N.lo a = N.lo b → N.hi a = N.hi b → a = b

theorem unordered (hi : N.Inj) : Unordered D N.okOp := by
  intro s u v w hs hu hok hp hv hw
  have h1 := N.rep s v hs hok hv
  have h2 := N.rep u w hu (fun o ho => hok o (hp.mem_iff.2 ho)) hw
  have hp' := hp.map N.contrib
  exact hi v w h1.ok h2.ok (by rw [h1.addend, h2.addend, total_perm hp'])
    (by rw [h1.mult, h2.mult, product_perm hp']) (by rw [h1.lo, h2.lo, floorOf_perm _ hp'])
    (by rw [h1.hi, h2.hi, capOf_perm _ hp'])

theorem join_assoc (hi : N.Inj) : JoinAssoc D N.ok := by
  intro a b c x y ha hb hc h1 h2
  obtain ⟨ab, hab, h1⟩ := Res.bind_eq_ok.1 h1
  obtain ⟨bc, hbc, h2⟩ := Res.bind_eq_ok.1 h2
  obtain ⟨k1, k2, k3, k4, k5⟩ := N.join _ _ _ ha hb hab
  obtain ⟨l1, l2, l3, l4, l5⟩ := N.join _ _ _ hb hc hbc
  obtain ⟨m1, m2, m3, m4, m5⟩ := N.join _ _ _ k1 hc h1
  obtain ⟨n1, n2, n3, n4, n5⟩ := N.join _ _ _ ha l1 h2
  exact hi x y m1 n1 (by rw [m2, n2, k2, l2, add_assoc]) (by rw [m3, n3, k3, l3, mul_assoc])
    (by rw [m4, n4, k4, l4, max_assoc]) (by rw [m5, n5, k5, l5, min_assoc])

/-- applying an operation agrees with joining the stat built from it, when neither panics -/
theorem write_eq_join (hi : N.Inj) (hbnd : ∀ v, N.ok v → N.lo0 ≤ N.lo v ∧ N.hi v ≤ N.hi0)
    {o : StatOp D} {v w s u : V} (hb : ¬ o.IsBase) (hok : N.okOp o) (hv : N.ok v)
    (h1 : o.writeTo v = .ok w) (h2 : o.intoStat = .ok s) (h3 : D.join v s = .ok u) : w = u := by
  obtain ⟨k1, k2, k3, k4, k5⟩ := N.step o v w hb hok hv h1
  obtain ⟨d1, d2, d3, d4, d5⟩ := N.dflt
  obtain ⟨l1, l2, l3, l4, l5⟩ := N.step o _ s hb hok d1 h2
  obtain ⟨m1, m2, m3, m4, m5⟩ := N.join _ _ _ hv l1 h3
  obtain ⟨b1, b2⟩ := hbnd v hv
  refine hi w u k1 m1 (by rw [k2, m2, l2, d2, zero_add]) (by rw [k3, m3, l3, d3, one_mul]) ?_ ?_
  · rw [k4, m4, l4, d4]
    cases N.contrib o <;> simp only [floorOf, max_eq_left b1]
    rw [max_left_comm, max_eq_left b1]
  · rw [k5, m5, l5, d5]
    cases N.contrib o <;> simp only [capOf, min_eq_left b2]
    rw [min_left_comm, min_eq_left b2]

end NumModel
end BSQ
