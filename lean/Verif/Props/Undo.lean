import Verif.Spec.Undo
import Verif.Props.MapLocal
import Verif.Props.StatMap
import Verif.Props.Misc
import Verif.Props.Bounds
import Verif.Props.FloatPoint
import Verif.Proofs.StatInt
import Verif.Proofs.FracStats
/-!
# C117: taking modifiers away again
-/
set_option linter.unusedSectionVars false
namespace BSQ
open Contrib

/-! ### maps -/
section Maps
variable {E : Env} {Q : Type} [DecidableEq Q] [Ord Q] [Std.TransOrd Q] [Std.LawfulEqOrd Q] {A : Addr E}

/-- the maps agree except at the given keys -/
def SameOff (K : List (Key E Q)) (a b : PMap E Q) : Prop := ∀ j, j ∉ K → a j = b j

private theorem SameOff.set {K : List (Key E Q)} {a b : PMap E Q} (h : SameOff K a b) (k : Key E Q) (v : k.Val) :
    SameOff K (a.set k v) (b.set k v) := by
  intro j hj
  unfold PMap.set
  split
  · rfl
  · exact h j hj

private theorem SameOff.store {K : List (Key E Q)} {a b a' : PMap E Q} (h : SameOff K a b) (k : Key E Q) (v : k.Val)
    (ha : a.store k v = .ok a') : ∃ b', b.store k v = .ok b' ∧ SameOff K a' b' := by
  unfold PMap.store at ha ⊢
  split at ha
  · next hs => cases ha; exact ⟨_, by rw [if_pos hs], h.set k v⟩
  · cases ha

/-- a call about none of the keys has the same outcome on both -/
private theorem SameOff.step {K : List (Key E Q)} {a b a' : PMap E Q} (h : SameOff K a b) (o : MapOp E Q)
    (ho : ∀ k, o.key = some k → k ∉ K) (ha : a.step o = .ok a') : ∃ b', b.step o = .ok b' ∧ SameOff K a' b' := by
  cases o with
  | insert q s v => exact h.store _ _ ha
  | insertBase q s v => exact h.store _ _ ha
  | modify q s f =>
    have hk := h ⟨s, q⟩ (ho _ rfl)
    simp only [PMap.step] at ha ⊢
    rw [← hk]
    cases hx : a ⟨s, q⟩ with
    | some v =>
      rw [hx] at ha
      obtain ⟨w, hw, ha⟩ := Res.bind_eq_ok.1 ha
      cases ha
      exact ⟨_, by simp only [hw, Res.bind_ok], h.set _ _⟩
    | none =>
      rw [hx] at ha
      obtain ⟨w, hw, ha⟩ := Res.bind_eq_ok.1 ha
      obtain ⟨b', hb, hs⟩ := h.store _ _ ha
      exact ⟨b', by simp only [hw, Res.bind_ok, hb], hs⟩
  | modifyWith q s f =>
    have hk := h ⟨s, q⟩ (ho _ rfl)
    simp only [PMap.step] at ha ⊢
    rw [← hk]
    cases hx : a ⟨s, q⟩ with
    | some v =>
      rw [hx] at ha
      obtain ⟨w, hw, ha⟩ := Res.bind_eq_ok.1 ha
      cases ha
      exact ⟨_, by simp only [hw, Res.bind_ok], h.set _ _⟩
    | none =>
      rw [hx] at ha
      obtain ⟨w, hw, ha⟩ := Res.bind_eq_ok.1 ha
      obtain ⟨b', hb, hs⟩ := h.store _ _ ha
      exact ⟨b', by simp only [hw, Res.bind_ok, hb], hs⟩
  | getMut q s f =>
    have hk := h ⟨s, q⟩ (ho _ rfl)
    simp only [PMap.step] at ha ⊢
    rw [← hk]
    cases hx : a ⟨s, q⟩ with
    | some v =>
      rw [hx] at ha
      obtain ⟨w, hw, ha⟩ := Res.bind_eq_ok.1 ha
      cases ha
      exact ⟨_, by simp only [hw, Res.bind_ok], h.set _ _⟩
    | none =>
      rw [hx] at ha
      cases ha
      exact ⟨b, rfl, h⟩
  | iterMut s f =>
    cases ha
    refine ⟨_, rfl, ?_⟩
    rintro ⟨t, q⟩ hj
    have := h ⟨t, q⟩ hj
    simp only [PMap.mapStat]
    split
    · next ht => subst ht; simp only [this]
    · exact this
  | remove q s =>
    cases ha
    refine ⟨_, rfl, fun j hj => ?_⟩
    unfold PMap.unset
    split
    · rfl
    · exact h j hj
  | removeAll s =>
    cases ha
    refine ⟨_, rfl, fun j hj => ?_⟩
    simp only
    split
    · rfl
    · exact h j hj
  | clear =>
    cases ha
    exact ⟨_, rfl, fun _ _ => rfl⟩

private theorem key_touches {o : MapOp E Q} {k j : Key E Q} (ho : o.key = some k) (hj : o.Touches j) : j = k := by
  cases o <;> cases ho <;> exact hj

/-- a call about no key or another one touches nothing that is not there -/
theorem step_unused {a a' : PMap E Q} (o : MapOp E Q) (k : Key E Q) (hk : a k = none)
    (ho : o.key ≠ some k) (ha : a.step o = .ok a') : a' k = none := by
  cases o with
  | iterMut s f =>
    cases ha
    obtain ⟨t, q⟩ := k
    simp only [PMap.mapStat]
    split
    · next ht => subst ht; simp only [hk, Option.map_none]
    · exact hk
  | removeAll s => cases ha; simp only; split <;> simp [hk]
  | clear => cases ha; rfl
  | _ =>
    refine (PMap.step_untouched (fun h => ho ?_) ha).trans hk
    rw [key_touches rfl h]; rfl

theorem runs_without {K : List (Key E Q)} (g : List (MapOp E Q)) {a b a' : PMap E Q} (h : SameOff K a b)
    (hb : ∀ k ∈ K, b k = none) (ha : a.runFrom g = .ok a') :
    ∃ b', b.runFrom (without K g) = .ok b' ∧ SameOff K a' b' ∧ ∀ k ∈ K, b' k = none := by
  induction g generalizing a b with
  | nil => cases ha; exact ⟨b, rfl, h, hb⟩
  | cons o g ih =>
    obtain ⟨a₁, h1, ha⟩ := Res.bind_eq_ok.1 ha
    by_cases ho : ∃ k ∈ K, o.key = some k
    · obtain ⟨k, hk, ho⟩ := ho
      have hw : without K (o :: g) = without K g := by
        unfold without; rw [List.filter_cons_of_neg]; simp [ho, hk]
      rw [hw]
      refine ih (fun j hj => ?_) hb ha
      rw [PMap.step_untouched (fun ht => hj (by rw [key_touches ho ht]; exact hk)) h1, h j hj]
    · have ho' : ∀ k, o.key = some k → k ∉ K := fun k hk hK => ho ⟨k, hK, hk⟩
      have hw : without K (o :: g) = o :: without K g := by
        unfold without; rw [List.filter_cons_of_pos]
        cases hk : o.key with
        | none => rfl
        | some k => simp [ho' k hk]
      obtain ⟨b₁, hb1, hs⟩ := h.step o ho' h1
      obtain ⟨b', h2, h3⟩ := ih hs (fun k hk => step_unused o k (hb k hk) (fun h => ho' k h hk) hb1) ha
      refine ⟨b', ?_, h3⟩
      rw [hw]
      exact Res.bind_eq_ok.2 ⟨b₁, hb1, h2⟩

private theorem runs_removing (K : List (Key E Q)) (a : PMap E Q) :
    ∃ a', a.runFrom (removing K) = .ok a' ∧ (∀ k ∈ K, a' k = none) ∧ SameOff K a' a := by
  induction K generalizing a with
  | nil => exact ⟨a, rfl, by simp, fun _ _ => rfl⟩
  | cons k K ih =>
    obtain ⟨a', h1, h2, h3⟩ := ih (a.unset ⟨k.stat, k.qual⟩)
    refine ⟨a', h1, fun j hj => ?_, fun j hj => ?_⟩
    · by_cases hK : j ∈ K
      · exact h2 j hK
      · have : j = k := by simpa [hK] using hj
        rw [h3 j hK, PMap.unset, if_pos this]
    · rw [h3 j (fun h => hj (by simp [h])), PMap.unset, if_neg (fun h => hj (by rw [h]; simp))]

private theorem Rep.runOk {m m' : StatMap E Q} {a : PMap E Q} (r : Rep A m a) {g : List (MapOp E Q)}
    (h : StatMap.runFrom A m g = .ok m') : ∃ a', a.runFrom g = .ok a' ∧ Rep A m' a' := by
  have := Rep.runFrom r g
  rw [h] at this
  cases ha : a.runFrom g with
  | error e => rw [ha] at this; exact this.elim
  | ok a' => rw [ha] at this; exact ⟨a', rfl, this⟩

theorem Rep.runOk' {m : StatMap E Q} {a a' : PMap E Q} (r : Rep A m a) {g : List (MapOp E Q)}
    (h : a.runFrom g = .ok a') : ∃ m', StatMap.runFrom A m g = .ok m' ∧ Rep A m' a' := by
  have := Rep.runFrom r g
  rw [h] at this
  cases hm : StatMap.runFrom A m g with
  | error e => rw [hm] at this; exact this.elim
  | ok m' => rw [hm] at this; exact ⟨m', rfl, this⟩

private theorem Rep.ofRun {h : List (MapOp E Q)} {m : StatMap E Q} (hm : StatMap.run A h = .ok m) :
    ∃ a, Rep A m a := by
  have := Rep.run (A := A) h
  rw [hm] at this
  cases ha : PMap.run h with
  | error e => rw [ha] at this; exact this.elim
  | ok a => rw [ha] at this; exact ⟨a, this⟩

/-- C117: temporary modifiers leave no trace.  Take keys not in use; after any calls (about these keys, others, whole
stats or everything), `remove` for each of these keys gives exactly the map that the other calls alone would
have given, so it is indistinguishable from a map that never held them. -/
theorem C117_no_trace (h g : List (MapOp E Q)) (K : List (Key E Q)) (m₀ m₁ : StatMap E Q)
    (hm : StatMap.run A h = .ok m₀) (hK : ∀ k ∈ K, StatMap.get A m₀ k.qual k.stat = .ok none)
    (hg : StatMap.runFrom A m₀ g = .ok m₁) :
    ∃ m, StatMap.runFrom A m₁ (removing K) = .ok m ∧ StatMap.runFrom A m₀ (without K g) = .ok m := by
  obtain ⟨a, r⟩ := Rep.ofRun hm
  obtain ⟨a₁, h1, r1⟩ := r.runOk hg
  have hK' : ∀ k ∈ K, a k = none := fun k hk => by
    have := hK k hk
    rw [r.get] at this
    exact Except.ok.inj this
  obtain ⟨b, h2, h3, h4⟩ := runs_without g (fun _ _ => rfl : SameOff K a a) hK' h1
  obtain ⟨c, h5, h6, h7⟩ := runs_removing K a₁
  have hcb : c = b := by
    funext k
    by_cases hk : k ∈ K
    · rw [h6 k hk, h4 k hk]
    · rw [h7 k hk, h3 k hk]
  subst hcb
  obtain ⟨m, e1, r2⟩ := r1.runOk' h5
  obtain ⟨m', e2, r3⟩ := r.runOk' h2
  exact ⟨m, e1, by rw [e2, r2.ext r3]⟩

/-- C117: a value inserted under a key not in use is given back by `remove`, whatever calls about other
keys were made in between, and the map is as if it had not been there -/
theorem C117_given_back (h g : List (MapOp E Q)) (q : Qualifier Q) (s : StatInst E) (v : s.Val)
    (m₀ m₁ : StatMap E Q) (hm : StatMap.run A h = .ok m₀) (hq : StatMap.get A m₀ q s = .ok none)
    (hg : StatMap.runFrom A m₀ (.insert q s v :: g) = .ok m₁) (ho : ∀ o ∈ g, ¬ o.Touches ⟨s, q⟩) :
    ∃ m, StatMap.remove A m₁ q s = .ok (m, some v) ∧ StatMap.runFrom A m₀ g = .ok m := by
  obtain ⟨m, h1, h2⟩ := C117_no_trace h (.insert q s v :: g) [⟨s, q⟩] m₀ m₁ hm
    (by intro k hk; cases List.mem_singleton.1 hk; exact hq) hg
  have hw : without [(⟨s, q⟩ : Key E Q)] (.insert q s v :: g) = g := by
    unfold without
    rw [List.filter_cons_of_neg (by simp [MapOp.key]), List.filter_eq_self]
    intro o hog
    have := ho o hog
    cases o <;> simp_all [MapOp.key, MapOp.Touches, eq_comm]
  rw [hw] at h2
  obtain ⟨a, r⟩ := Rep.ofRun hm
  obtain ⟨a₁, e1, r1⟩ := r.runOk hg
  have hv : a₁ ⟨s, q⟩ = some v := by
    obtain ⟨a₂, e2, e1⟩ := Res.bind_eq_ok.1 e1
    have h0 : a₂ ⟨s, q⟩ = some v := by
      simp only [PMap.step, PMap.store] at e2
      split at e2
      · cases e2; simp [PMap.set]
      · cases e2
    rename_i e0
    clear e0 e2 hg h1 h2 hw r1
    induction g generalizing a₂ with
    | nil => cases e1; exact h0
    | cons o g ih =>
      obtain ⟨a₃, e3, e1⟩ := Res.bind_eq_ok.1 e1
      exact ih (fun o ho' => ho o (by simp [ho'])) a₃ e1
        (by rw [PMap.step_untouched (ho o (by simp)) e3, h0])
  have hr := (r1.pull q s).1
  rw [hv] at hr
  have h1' : StatMap.runFrom A m₁ [.remove q s] = .ok m := h1
  simp only [StatMap.runFrom, StatMap.step, hr, Res.bind_ok] at h1'
  cases h1'
  exact ⟨_, hr, h2⟩

/-- C117: any calls about a key that is in use are undone by `insert`ing the value it had before -/
theorem C117_restored (h g : List (MapOp E Q)) (q : Qualifier Q) (s : StatInst E) (v : s.Val) (m₀ m₁ : StatMap E Q)
    (hm : StatMap.run A h = .ok m₀) (hq : StatMap.get A m₀ q s = .ok (some v))
    (hg : StatMap.runFrom A m₀ g = .ok m₁) (ho : ∀ o ∈ g, o.key = some ⟨s, q⟩) :
    StatMap.insert A m₁ q s v = .ok m₀ := by
  obtain ⟨a, r⟩ := Rep.ofRun hm
  obtain ⟨a₁, e1, r1⟩ := r.runOk hg
  have hv : a ⟨s, q⟩ = some v := by
    have := r.get q s; rw [hq] at this; exact (Except.ok.inj this).symm
  have hsame : ∀ j, j ≠ (⟨s, q⟩ : Key E Q) → a₁ j = a j := by
    clear hg r1 hm hq r hv
    induction g generalizing a with
    | nil => cases e1; exact fun _ _ => rfl
    | cons o g ih =>
      obtain ⟨a₃, e3, e1⟩ := Res.bind_eq_ok.1 e1
      intro j hj
      rw [ih (fun o ho' => ho o (by simp [ho'])) a₃ e1 j hj,
        PMap.step_untouched (fun ht => hj (key_touches (ho o (by simp)) ht)) e3]
  have hs : Storable (E.layout s.ty) := r.storable ⟨s, q⟩ (by rw [hv]; rfl)
  obtain ⟨m', e2, r2⟩ := r1.runOk' (g := [.insert q s v]) (a' := a₁.set ⟨s, q⟩ v) (by
    simp only [PMap.runFrom, PMap.step, PMap.store, if_pos hs, Res.bind_ok])
  have : a₁.set ⟨s, q⟩ v = a := by
    funext j
    unfold PMap.set
    split
    · next hj => subst hj; exact hv.symm
    · next hj => exact hsame j hj
  rw [this] at r2
  simp only [StatMap.runFrom, StatMap.step] at e2
  rw [r.ext r2]
  cases hx : StatMap.insert A m₁ q s v with
  | error e => rw [hx] at e2; cases e2
  | ok m'' => rw [hx] at e2; exact e2

/-- C117 on a concrete map: a bonus put on and off again around a change of the base value and of all values of the
stat; the map is as if it had never been there -/
example : (StatMap.runFrom demoAddr (Q := BitVec 8) [⟨demoInt 0, ⟨0, 0⟩, .val true ⟨5, 0, 100, 1⟩⟩]
    [.insert ⟨1, 0⟩ (demoInt 0) ⟨3, 0, 100, 1⟩, .modify ⟨0, 0⟩ (demoInt 0) (.add (4 : Int)),
     .iterMut (demoInt 0) (fun v => { v with mult := 2 }), .modify ⟨1, 0⟩ (demoInt 0) (.mul (3 : Int)),
     .remove ⟨1, 0⟩ (demoInt 0)]) = .ok [⟨demoInt 0, ⟨0, 0⟩, .val true ⟨9, 0, 100, 2⟩⟩] := by rfl

end Maps

/-! ### operations -/

/-- two operations cancel if their contributions do -/
private theorem NumModel.cancels {V : Type} {D : StatValue V} {A M B : Type} [AddCommMonoid A] [CommMonoid M]
    [LinearOrder B] (N : NumModel D A M B) (hi : N.Inj) {o o' : StatOp D}
    (ht : total [N.contrib o, N.contrib o'] = 0) (hp : product [N.contrib o, N.contrib o'] = 1)
    (hl : ∀ x L, floorOf x (N.contrib o :: N.contrib o' :: L) = floorOf x L)
    (hc : ∀ x L, capOf x (N.contrib o :: N.contrib o' :: L) = capOf x L) : Cancels D N.okOp o o' := by
  intro s u v w hs hu hok hperm hv hw
  have h1 := N.rep s v hs hok hv
  have h2 := N.rep u w hu (fun x hx => hok x (hperm.mem_iff.2 (by simp [hx]))) hw
  have hp' : (s.leaves.map N.contrib).Perm ([N.contrib o, N.contrib o'] ++ u.leaves.map N.contrib) := by
    simpa using hperm.map N.contrib
  refine hi v w h1.ok h2.ok ?_ ?_ ?_ ?_
  · rw [h1.addend, h2.addend, total_perm hp', total_append, ht, zero_add]
  · rw [h1.mult, h2.mult, product_perm hp', product_append, hp, one_mul]
  · rw [h1.lo, h2.lo, floorOf_perm _ hp']; exact hl _ _
  · rw [h1.hi, h2.hi, capOf_perm _ hp']; exact hc _ _

/-- the same for `StatInt`, with exact or with wrapping arithmetic -/
private theorem StatInt.cancels {t : NumTy} (N : IntNorm t) {o o' : StatOp (statInt t)}
    (ht : ∀ x, N.norm (total [statInt.contrib o, statInt.contrib o'] + x) = N.norm x)
    (hp : ∀ x, N.norm (product [statInt.contrib o, statInt.contrib o'] * x) = N.norm x)
    (hl : ∀ x L, floorOf x (statInt.contrib o :: statInt.contrib o' :: L) = floorOf x L)
    (hc : ∀ x L, capOf x (statInt.contrib o :: statInt.contrib o' :: L) = capOf x L) :
    Cancels (statInt t) (fun o => t.prim.InRange (statInt.contrib o).num) o o' := by
  intro s u v w hs hu hok hperm hv hw
  have h1 := StatInt.rep N s v hs hok hv
  have h2 := StatInt.rep N u w hu (fun x hx => hok x (hperm.mem_iff.2 (by simp [hx]))) hw
  have hp' : (statInt.contribs s.leaves).Perm
      ([statInt.contrib o, statInt.contrib o'] ++ statInt.contribs u.leaves) := by
    simpa [statInt.contribs] using hperm.map statInt.contrib
  have e1 : v.addend = w.addend := by rw [h1.addend, h2.addend, total_perm hp', total_append, ht]
  have e2 : v.mult = w.mult := by rw [h1.mult, h2.mult, product_perm hp', product_append, hp]
  have e3 : v.min = w.min := by rw [h1.min, h2.min, floorOf_perm _ hp']; exact hl _ _
  have e4 : v.max = w.max := by rw [h1.max, h2.max, capOf_perm _ hp']; exact hc _ _
  cases v; cases w; simp_all

/-- C117 for `StatInt` with overflow checks: `Add(-x)` undoes `Add(x)`, as long as nothing overflows -/
theorem C117_int (t : NumTy) (h : t.ovf = .panic) (x : Int) :
    Cancels (statInt t) (fun o => t.prim.InRange (statInt.contrib o).num) (.add x) (.add (-x)) :=
  StatInt.cancels (.exact h) (fun y => by simp [statInt.contrib, total, IntNorm.exact])
    (fun y => by simp [statInt.contrib, product, IntNorm.exact]) (fun _ _ => rfl) (fun _ _ => rfl)

/-- C117 for `StatInt` in release builds and over `Wrapping`: adding two numbers that make 0, and multiplying by two
that make 1, when wrapped around, cancel; nothing can overflow, and for unsigned types as well -/
theorem C117_int_wrapping (t : NumTy) (h : t.ovf = .wrap) (hb : 1 < t.prim.bits) (x y : Int) :
    (t.prim.wrap (x + y) = 0 →
      Cancels (statInt t) (fun o => t.prim.InRange (statInt.contrib o).num) (.add x) (.add y)) ∧
    (t.prim.wrap (x * y) = 1 →
      Cancels (statInt t) (fun o => t.prim.InRange (statInt.contrib o).num) (.mul x) (.mul y)) := by
  refine ⟨fun hxy => ?_, fun hxy => ?_⟩
  · refine StatInt.cancels (.wrapping h hb) (fun z => ?_) (fun z => by simp [statInt.contrib, product])
      (fun _ _ => rfl) (fun _ _ => rfl)
    simp only [IntNorm.wrapping, statInt.contrib, total, add_zero]
    rw [← IntTy.wrap_wrap_add, hxy, zero_add]
  · refine StatInt.cancels (.wrapping h hb) (fun z => by simp [statInt.contrib, total]) (fun z => ?_)
      (fun _ _ => rfl) (fun _ _ => rfl)
    simp only [IntNorm.wrapping, statInt.contrib, product, mul_one]
    rw [← IntTy.wrap_wrap_mul, hxy, one_mul]

/-- C117 for `StatIntPercentAdditive`: opposite numbers added, and opposite percentages, cancel -/
theorem C117_percent_additive (t : NumTy) (h : t.ovf = .panic) (hb : 1 < t.prim.bits) (R : Rounding) (S x : Int) :
    Cancels (statIntPercentAdditive t R S) statIntPercentAdditive.okOp (.add x) (.add (-x)) ∧
    Cancels (statIntPercentAdditive t R S) statIntPercentAdditive.okOp (.mul x) (.mul (-x)) := by
  refine ⟨NumModel.cancels (statIntPercentAdditive.model h hb R S) (statIntPercentAdditive.inj h hb R S) ?_ ?_
    (fun _ _ => rfl) (fun _ _ => rfl),
    NumModel.cancels (statIntPercentAdditive.model h hb R S) (statIntPercentAdditive.inj h hb R S) ?_ ?_
    (fun _ _ => rfl) (fun _ _ => rfl)⟩ <;>
  simp [statIntPercentAdditive.model, statIntPercentAdditive.contrib, total, product, asMul]

/-- C117 for `StatIntFraction`: opposite numbers added, and multiplying by a fraction and its inverse, cancel -/
theorem C117_int_fraction (t : NumTy) (h : t.ovf = .panic) (hb : 1 < t.prim.bits) (R : Rounding) (x : Int)
    (p q : Frac) (hpq : p.toRat * q.toRat = 1) :
    Cancels (statIntFraction t R) statIntFraction.okOp (.add x) (.add (-x)) ∧
    Cancels (statIntFraction t R) statIntFraction.okOp (.mul p) (.mul q) := by
  refine ⟨NumModel.cancels (statIntFraction.model h hb R) (statIntFraction.inj h hb R) ?_ ?_
    (fun _ _ => rfl) (fun _ _ => rfl), NumModel.cancels (statIntFraction.model h hb R)
    (statIntFraction.inj h hb R) ?_ ?_ (fun _ _ => rfl) (fun _ _ => rfl)⟩ <;>
  simp [statIntFraction.model, statIntFraction.contrib, total, product, hpq]

/-- C117 for `StatFloat<Fraction>`, `StatFloatAdditive<Fraction>` and `StatMult<Fraction>` -/
theorem C117_fractions (t : NumTy) (h : t.ovf = .panic) (hb : 1 < t.prim.bits) (x y p q : Frac)
    (hxy : x.toRat + y.toRat = 0) (hpq : p.toRat * q.toRat = 1) :
    Cancels (statFloat (Frac.ops t)) statFloat.okOp (.add x) (.add y) ∧
    Cancels (statFloat (Frac.ops t)) statFloat.okOp (.mul p) (.mul q) ∧
    Cancels (statFloatAdditive (Frac.ops t)) statFloatAdditive.okOp (.add x) (.add y) ∧
    Cancels (statFloatAdditive (Frac.ops t)) statFloatAdditive.okOp (.mul x) (.mul y) ∧
    Cancels (statMult (Frac.ops t)) statMult.okOp (.mul p) (.mul q) := by
  refine ⟨NumModel.cancels (statFloat.fracModel h hb) (statFloat.fracInj h hb) ?_ ?_
    (fun _ _ => rfl) (fun _ _ => rfl), NumModel.cancels (statFloat.fracModel h hb) (statFloat.fracInj h hb) ?_ ?_
    (fun _ _ => rfl) (fun _ _ => rfl), NumModel.cancels (statFloatAdditive.fracModel h hb)
    (statFloatAdditive.fracInj h hb) ?_ ?_ (fun _ _ => rfl) (fun _ _ => rfl),
    NumModel.cancels (statFloatAdditive.fracModel h hb)
    (statFloatAdditive.fracInj h hb) ?_ ?_ (fun _ _ => rfl) (fun _ _ => rfl),
    NumModel.cancels (statMult.fracModel h hb) (statMult.fracInj h hb) ?_ ?_ (fun _ _ => rfl) (fun _ _ => rfl)⟩ <;>
  simp [statFloat.fracModel, statFloat.fracContrib, statFloatAdditive.fracModel, statFloatAdditive.fracContrib,
    statMult.fracModel, statMult.fracContrib, total, product, asMul, hxy, hpq, ← ofAdd_add]

/-- C117: over `Saturating` no addition can be undone by its opposite -/
theorem C117_saturating_never (t : NumTy) (h : t.ovf = .sat) (x : Int) (hx : x ≠ 0)
    (hr : t.prim.InRange x) (hr' : t.prim.InRange (-x)) :
    ¬ Cancels (statInt t) (fun o => t.prim.InRange (statInt.contrib o).num) (.add x) (.add (-x)) := by
  intro hc
  have hlh := t.prim.lo_le_hi
  have h0 := t.prim.inRange_zero
  unfold IntTy.InRange at hr hr' h0
  have key : ∀ b, t.prim.InRange b → ∀ y, t.fit (b + x) = .ok y → ∀ z, t.fit (y + -x) = .ok z → z = b := by
    intro b hb y hy z hz
    have := hc (.op (.op (.base b) (.add x)) (.add (-x))) (.base b)
      { addend := z, min := t.prim.lo, max := t.prim.hi, mult := 1 }
      { addend := b, min := t.prim.lo, max := t.prim.hi, mult := 1 }
      ⟨⟨trivial, id⟩, id⟩ trivial ?_ ?_ ?_ rfl
    · exact congrArg StatInt.addend this
    · intro o ho
      simp only [Tree.leaves, List.append_assoc, List.mem_append, List.mem_singleton] at ho
      rcases ho with rfl | rfl | rfl
      · exact hb
      · exact hr
      · exact hr'
    · exact (List.perm_append_comm (l₁ := [_]) (l₂ := [_, _]))
    · simp only [Tree.run, StatOp.writeTo, NumTy.add, hy, hz, Res.bind_ok, NumTy.minValue, NumTy.maxValue]
  rcases lt_or_gt_of_ne hx with hx | hx
  · have := key t.prim.lo ⟨le_rfl, hlh⟩ _ (NumTy.fit_sat h _) _ (NumTy.fit_sat h _)
    omega
  · have := key t.prim.hi ⟨hlh, le_rfl⟩ _ (NumTy.fit_sat h _) _ (NumTy.fit_sat h _)
    omega

/-- C117: over floats additions cannot be undone in general: `1 + 2^25 - 2^25` is `0` in `f32`, in `f64` likewise with
`2^54`; and multiplications neither: twice the smallest number, times `1/4` and times `4`, is `0` -/
theorem C117_float_refuted :
    ¬ Cancels (statFloat (Fl.ops .f32)) (fun _ => True) (.add (.fin (2 ^ 25))) (.add (.fin (-(2 ^ 25)))) ∧
    ¬ Cancels (statFloat (Fl.ops .f64)) (fun _ => True) (.add (.fin (2 ^ 54))) (.add (.fin (-(2 ^ 54)))) ∧
    ¬ Cancels (statFloat (Fl.ops .f32)) (fun _ => True) (.mul (.fin (1 / 4))) (.mul (.fin 4)) := by
  refine ⟨fun hc => ?_, fun hc => ?_, fun hc => ?_⟩
  · have := hc (.op (.op (.base (.fin 1)) (.add (.fin (2 ^ 25)))) (.add (.fin (-(2 ^ 25))))) (.base (.fin 1)) _ _
      ⟨⟨trivial, id⟩, id⟩ trivial (fun _ _ => trivial) (List.perm_append_comm (l₁ := [_]) (l₂ := [_, _])) rfl rfl
    exact absurd (congrArg StatFloat.addend this) (by decide +kernel)
  · have := hc (.op (.op (.base (.fin 1)) (.add (.fin (2 ^ 54)))) (.add (.fin (-(2 ^ 54))))) (.base (.fin 1)) _ _
      ⟨⟨trivial, id⟩, id⟩ trivial (fun _ _ => trivial) (List.perm_append_comm (l₁ := [_]) (l₂ := [_, _])) rfl rfl
    exact absurd (congrArg StatFloat.addend this) (by decide +kernel)
  · have := hc (.op (.op (.op .dflt (.mul (.fin (2 / 2 ^ 149)))) (.mul (.fin (1 / 4)))) (.mul (.fin 4)))
      (.op .dflt (.mul (.fin (2 / 2 ^ 149)))) _ _ ⟨⟨⟨trivial, id⟩, id⟩, id⟩ ⟨trivial, id⟩ (fun _ _ => trivial)
      (List.perm_append_comm (l₁ := [_]) (l₂ := [_, _])) rfl rfl
    exact absurd (congrArg StatFloat.mult this) (by decide +kernel)

/-- C117: setting or removing flags cannot be undone by any operation other than a new base value -/
theorem C117_flags_stay (T : Type) [BitXorFlags T] [FlagSetXor T] (x : T) (f : FlagSet.Flag T) (hf : FlagSet.has x f)
    (o : StatOp (statFlags T)) (ho : ¬ o.IsBase) :
    ¬ Cancels (statFlags T) (fun _ => True) (.or x) o ∧ ¬ Cancels (statFlags T) (fun _ => True) (.not x) o := by
  have key : ∀ (u : Tree (statFlags T)) (p : StatOp (statFlags T)), u.NoReset → ¬ p.IsBase →
      Cancels (statFlags T) (fun _ => True) p o →
      (((∃ q ∈ p :: o :: u.leaves, q.Sets f) ∧ ¬ ∃ q ∈ p :: o :: u.leaves, q.Clears f) ↔
        ((∃ q ∈ u.leaves, q.Sets f) ∧ ¬ ∃ q ∈ u.leaves, q.Clears f)) := by
    intro u p hu hp hc
    obtain ⟨v, out, hv, he, h1⟩ := C17_flags T (.op (.op u p) o) ⟨⟨hu, hp⟩, ho⟩
    obtain ⟨w, out', hw, he', h2⟩ := C17_flags T u hu
    have hperm : (Tree.op (.op u p) o).leaves.Perm (p :: o :: u.leaves) := by
      simp only [Tree.leaves, List.append_assoc]
      exact List.perm_append_comm (l₂ := [p, o])
    have := hc (.op (.op u p) o) u v w ⟨⟨hu, hp⟩, ho⟩ hu (fun _ _ => trivial) hperm hv hw
    subst this
    rw [he] at he'
    cases he'
    rw [← h2 f, h1 f]
    simp only [hperm.mem_iff]
  have hx : StatOp.Sets f (.or x : StatOp (statFlags T)) := hf
  have hx' : StatOp.Clears f (.not x : StatOp (statFlags T)) := hf
  refine ⟨fun hc => ?_, fun hc => ?_⟩
  · by_cases hcl : o.Clears f
    · have := (key (.base x) _ trivial id hc).2
        ⟨⟨_, List.mem_singleton.2 rfl, hf⟩, fun ⟨q, hq, h⟩ => by cases List.mem_singleton.1 hq; exact h⟩
      exact this.2 ⟨o, by simp, hcl⟩
    · have := (key .dflt _ trivial id hc).1 ⟨⟨_, List.mem_cons_self, hx⟩, fun ⟨q, hq, h⟩ => by
        simp only [Tree.leaves, List.mem_cons, List.not_mem_nil, or_false] at hq
        rcases hq with rfl | rfl
        · exact h
        · exact hcl h⟩
      obtain ⟨⟨q, hq, -⟩, -⟩ := this
      cases hq
  · have := (key (.base x) _ trivial id hc).2
      ⟨⟨_, List.mem_singleton.2 rfl, hf⟩, fun ⟨q, hq, h⟩ => by cases List.mem_singleton.1 hq; exact h⟩
    exact this.2 ⟨_, List.mem_cons_self, hx'⟩

/-- C117: a bound cannot be undone by any operation other than a new base value -/
theorem C117_bounds_stay (t : NumTy) (b : Int) (hr : t.prim.InRange b)
    (o : StatOp (statInt t)) (ho : ¬ o.IsBase) (hok : t.prim.InRange (statInt.contrib o).num) :
    (t.prim.lo < b → ¬ Cancels (statInt t) (fun o => t.prim.InRange (statInt.contrib o).num) (.min b) o) ∧
    (b < t.prim.hi → ¬ Cancels (statInt t) (fun o => t.prim.InRange (statInt.contrib o).num) (.max b) o) := by
  have hrun : ∀ v : StatInt, v.addend = 0 → v.mult = 1 → ∃ w, o.writeTo v = .ok w ∧
      v.min ≤ w.min ∧ w.max ≤ v.max := by
    intro v h1 h2
    cases o with
    | base x => exact absurd trivial ho
    | or x => exact x.elim
    | not x => exact x.elim
    | add x =>
      have : t.fit x = .ok x := NumTy.fit_inRange hok
      exact ⟨{ v with addend := x }, by simp [StatOp.writeTo, NumTy.add, h1, this], le_rfl, le_rfl⟩
    | mul x =>
      have : t.fit x = .ok x := NumTy.fit_inRange hok
      exact ⟨{ v with mult := x }, by simp [StatOp.writeTo, NumTy.mul, h2, this], le_rfl, le_rfl⟩
    | min x => exact ⟨_, rfl, by simp [NumTy.max_eq], le_rfl⟩
    | max x => exact ⟨_, rfl, le_rfl, by simp [NumTy.min_eq]⟩
  refine ⟨fun hlt hc => ?_, fun hlt hc => ?_⟩
  · obtain ⟨w, hw, h1, -⟩ := hrun { addend := 0, min := t.max t.minValue b, max := t.maxValue, mult := 1 } rfl rfl
    have := hc (.op (.op .dflt (.min b)) o) .dflt w _ ⟨⟨trivial, id⟩, ho⟩ trivial ?_ (List.Perm.refl _) hw rfl
    · subst this
      simp only [NumTy.max_eq, NumTy.minValue] at h1
      omega
    · intro p hp
      simp only [Tree.leaves, List.nil_append, List.mem_append, List.mem_singleton] at hp
      rcases hp with rfl | rfl
      · exact hr
      · exact hok
  · obtain ⟨w, hw, -, h1⟩ := hrun { addend := 0, min := t.minValue, max := t.min t.maxValue b, mult := 1 } rfl rfl
    have := hc (.op (.op .dflt (.max b)) o) .dflt w _ ⟨⟨trivial, id⟩, ho⟩ trivial ?_ (List.Perm.refl _) hw rfl
    · subst this
      simp only [NumTy.min_eq, NumTy.maxValue] at h1
      omega
    · intro p hp
      simp only [Tree.leaves, List.nil_append, List.mem_append, List.mem_singleton] at hp
      rcases hp with rfl | rfl
      · exact hr
      · exact hok

/-- C117, concretely: a bonus of 5 is added, everything is doubled, a bound is set, and the bonus is taken off again -/
example : let D := statInt ⟨.i32, .prim, .debug⟩
    (Tree.ofList [.add (10 : Int), .add (5 : Int), .mul (2 : Int), .max (40 : Int), .add (-5 : Int)] : Tree D).run =
    (Tree.ofList [.max (40 : Int), .add (10 : Int), .mul (2 : Int)] : Tree D).run := by rfl

end BSQ
