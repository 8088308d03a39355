import Verif.Model.HostileCache
import Verif.Props.Poison
import Mathlib.Data.List.Induction
/-!
# C99: the cache and user code that does whatever it likes
-/
namespace BSQ
variable {E : Env} {K : Type} {same : K → K → Bool} {ty : K → E.U}
open PState

/-- a `clear` in which a destructor of a value panics, by a thread that is panicking already -/
def XPOp.LateClear : XPOp K → Prop
  | .clear late _ failsAt _ => late = true ∧ failsAt ≠ none
  | _ => False

/-- the books of the cache: a poisoned one is responsible for nothing, whatever its map holds -/
def XBalanced (ty : K → E.U) (p : PState E K) : Prop :=
  ∃ R, Books p.st.heap ((if p.poisoned then [] else HMap.cells ty p.st.map) ++ R)

theorem XBalanced.lose {p : PState E K} (b : XBalanced ty p) : XBalanced ty ⟨p.st, true⟩ := by
  obtain ⟨R, b⟩ := b
  exact ⟨_, b⟩

theorem XBalanced.poisonIf {h : Heap E.U} {m : HMap K Cell} {R : List (Cell × E.U)}
    (b : Books h (HMap.cells ty m ++ R)) (c : Bool) : XBalanced ty ⟨⟨h, m⟩, c⟩ := by
  cases c with
  | true => exact ⟨_, b⟩
  | false => exact ⟨R, b⟩

theorem seek_some (hs : ∀ a b, same a b = true → ty a = ty b) {m : HMap K Cell} {k : K} {f : Find} {j : Nat} {x : Cell}
    (h : seek same m k f = some (j, x)) : ∃ pre e post, m = pre ++ e :: post ∧ pre.length = j ∧ e.2 = x ∧
      same e.1 k = true ∧ ty e.1 = ty k := by
  cases f with
  | panics => cases h
  | absent => cases h
  | «at» i =>
    simp only [seek] at h
    cases hi : m[i]? with
    | none => rw [hi] at h; cases h
    | some e =>
      rw [hi] at h
      simp only [Option.bind_some] at h
      split at h
      · rename_i hk
        cases h
        obtain ⟨hlt, rfl⟩ := List.getElem?_eq_some_iff.1 hi
        refine ⟨m.take j, m[j], m.drop (j + 1), ?_, ?_, rfl, hk, hs _ _ hk⟩
        · rw [← List.drop_eq_getElem_cons, List.take_append_drop]
        · simp only [List.length_take]; omega
      · cases h

theorem insertAt_books (hs : ∀ a b, same a b = true → ty a = ty b) {h : Heap E.U} {m : HMap K Cell} {k : K} {f : Find}
    {b : Cell} {R : List (Cell × E.U)} (hb : Books h ((b, ty k) :: (HMap.cells ty m ++ R))) :
    ∃ lost : List (Cell × E.U), Books h (HMap.cells ty (insertAt m k b (seek same m k f)) ++ (lost ++ R)) := by
  rcases hk : seek same m k f with _ | ⟨j, x⟩
  · refine ⟨[], hb.perm ?_⟩
    simp only [insertAt, HMap.cells, List.map_append, List.map_cons, List.map_nil, List.nil_append, List.append_assoc,
      List.cons_append]
    exact List.perm_middle.symm
  · obtain ⟨pre, e, post, rfl, rfl, rfl, -, he⟩ := seek_some hs hk
    refine ⟨[(e.2, ty e.1)], hb.perm ?_⟩
    simp only [insertAt]
    rw [List.modify_eq_take_cons_drop (h := by simp)]
    simp only [HMap.cells, List.map_append, List.map_cons, List.take_left', List.append_assoc, List.cons_append,
      List.nil_append, List.getElem_append_right (Nat.le_refl _), Nat.sub_self, List.getElem_cons_zero, he]
    rw [show (pre ++ e :: post).drop (pre.length + 1) = post by simp]
    refine List.perm_middle.symm.trans (List.Perm.append_left _ (List.Perm.cons _ ?_))
    exact List.perm_middle.symm

theorem XBalanced.step (hs : ∀ a b, same a b = true → ty a = ty b) {p : PState E K} (b : XBalanced ty p) (o : XPOp K)
    (ho : ¬ o.LateClear) : XBalanced ty (p.stepX same ty o).1 := by
  classical
  cases hp : p.poisoned with
  | true => cases o <;> simpa [stepX, cachePairX, lookupX, debug, clearX, hp] using b
  | false =>
    obtain ⟨R, hb⟩ := b
    simp only [hp, Bool.false_eq_true, if_false] at hb
    have hmap : ∀ ord : HashOrder K, Books p.st.heap (HMap.cells ty (ord.list p.st.map) ++ R) := fun ord =>
      hb.perm (((ord.perm _).map _).symm.append_right _)
    cases o with
    | cachePair late k cloneFails f left keyFails =>
      simp only [stepX, cachePairX, hp, Bool.false_eq_true, if_false]
      cases cloneFails with
      | true => exact XBalanced.poisonIf hb _
      | false =>
        simp only [Bool.false_eq_true, if_false]
        rcases hb.alloc (ty k) with ⟨_, h', x, h1, h2⟩ | ⟨_, h', h1, h2⟩
        · simp only [h1]
          have hins : ∀ f, XBalanced ty ⟨⟨h', insertAt p.st.map k x (seek same p.st.map k f)⟩, keyFails && !late⟩ := by
            intro f
            obtain ⟨lost, h3⟩ := insertAt_books (f := f) hs h2
            exact XBalanced.poisonIf h3 _
          cases f with
          | panics =>
            simp only
            obtain ⟨l, hl⟩ := (left.sub p.st.map).exists_perm_append
            refine XBalanced.poisonIf (R := HMap.cells ty l ++ ((x, ty k) :: R)) (h2.perm ?_) _
            refine List.perm_middle.symm.trans ?_
            rw [← List.append_assoc]
            refine List.Perm.append_right _ ?_
            unfold HMap.cells
            rw [← List.map_append]
            exact hl.map _
          | absent => exact hins .absent
          | «at» j => exact hins (.at j)
        · simp only [h1]
          exact XBalanced.poisonIf h2 _
    | lookup k cloneFails f keyFails =>
      simp only [stepX, lookupX, hp, Bool.false_eq_true, if_false]
      have hgo : XBalanced ty (match seek same p.st.map k f with
          | none => (p, !keyFails)
          | some (_, x) =>
            if cloneFails = true then ((⟨⟨p.st.heap.use x (ty k), p.st.map⟩, false⟩ : PState E K), false)
            else if keyFails = true then (⟨⟨((p.st.heap.use x (ty k)).create (ty k)).1, p.st.map⟩, false⟩, false)
            else (⟨⟨HState.cloneOut p.st.heap x (ty k), p.st.map⟩, false⟩, true)).1 := by
        rcases hk : seek same p.st.map k f with _ | ⟨j, x⟩
        · exact ⟨R, by simpa [hp] using hb⟩
        · obtain ⟨pre, e, post, hm, -, rfl, -, he⟩ := seek_some hs hk
          have hin : (e.2, ty k) ∈ HMap.cells ty p.st.map ++ R :=
            List.mem_append_left _ (by simp [HMap.cells, hm, he])
          cases cloneFails with
          | true => exact XBalanced.poisonIf (hb.use hin) _
          | false =>
            cases keyFails with
            | true =>
              have h3 := (hb.use hin).create (ty k)
              exact XBalanced.poisonIf (R := (_, ty k) :: R) (h3.perm List.perm_middle.symm) _
            | false => exact XBalanced.poisonIf (HBalanced.cloneOut hb hin) _
      cases f with
      | panics => exact ⟨R, by simpa [hp] using hb⟩
      | absent => exact hgo
      | «at» j => exact hgo
    | debug ord failsAt =>
      simp only [stepX, debug, hp, Bool.false_eq_true, if_false]
      obtain ⟨h1, -⟩ := useUntil_books (ty := ty) (ord.list p.st.map) hb (fun e he =>
        List.mem_append_left _ (List.mem_map.2 ⟨e, (ord.perm _).mem_iff.1 he, rfl⟩)) failsAt
      exact XBalanced.poisonIf h1 _
    | clear late ord failsAt keyFails =>
      simp only [stepX, clearX, hp, Bool.false_eq_true, if_false]
      rcases dropUntil_books (ty := ty) (ord.list p.st.map) (hmap ord) failsAt with
        ⟨h1, h', h2, h3⟩ | ⟨h1, h', left, h2, h3, h4⟩
      · simp only [h2]
        exact XBalanced.poisonIf (m := []) h3 _
      · simp only [h2]
        have hl : late = false := by
          cases late with
          | false => rfl
          | true =>
            refine absurd ⟨rfl, fun hn => ?_⟩ ho
            subst hn
            simp [Kept.Breaks] at h1
        subst hl
        exact ⟨_, h3⟩

theorem xbalanced (hs : ∀ a b, same a b = true → ty a = ty b) (os : List (XPOp K)) (ho : ∀ o ∈ os, ¬ o.LateClear) :
    XBalanced ty (runX same ty os) := by
  induction os using List.reverseRecOn with
  | nil => exact ⟨[], Books.new⟩
  | append_singleton os o ih =>
    have h1 : runX same ty (os ++ [o]) = ((runX same ty os).stepX same ty o).1 := by simp [runX]
    rw [h1]
    exact (ih fun o ho' => ho o (by simp [ho'])).step hs o (ho o (by simp))

/-- **C99** Whatever `Eq`, `Hash`, `Clone`, `Debug` and `Drop` of qualifiers and values do, and wherever they panic: no
cached value is accessed at another type, used after its drop or dropped twice, while the program runs and when the
cache is dropped.  The one exception is a destructor that panics in a `clear` made by a thread that is panicking
already.  `same` is what a wrong `Eq` of the qualifiers leaves of the comparison of keys. -/
theorem C99_sound (hs : ∀ a b, same a b = true → ty a = ty b) (os : List (XPOp K)) (ho : ∀ o ∈ os, ¬ o.LateClear)
    (ord : HashOrder K) (failsAt : Option Nat) :
    Sound (runX same ty os).st.heap.log ∧ Sound ((runX same ty os).finish ty ord failsAt).1.log := by
  classical
  obtain ⟨R, b⟩ := xbalanced hs os ho
  refine ⟨b.sound, ?_⟩
  unfold finish
  cases hp : (runX same ty os).poisoned with
  | true => exact b.sound
  | false =>
    simp only [hp, Bool.false_eq_true, if_false] at b ⊢
    rcases dropUntil_books (ty := ty) (ord.list (runX same ty os).st.map)
      (b.perm (((ord.perm _).map _).symm.append_right _)) failsAt with
      ⟨h1, h', h2, h3⟩ | ⟨h1, h', left, h2, h3, h4⟩
    · rw [h2]; exact h3.sound
    · rw [h2]; exact h3.sound

/-- C99 applies to the cache: keys that differ in their query at most have values of one type -/
theorem C99_keys {Q Ent : Type} [DecidableEq Ent] (a b : CacheKey E Q Ent)
    (h : (decide (a.entity = b.entity) && decide (a.stat = b.stat)) = true) : a.stat.ty = b.stat.ty := by
  simp only [Bool.and_eq_true, decide_eq_true_eq] at h
  rw [h.2]

/-- **C99** Only the exception: a `clear` made while unwinding, in which a destructor panics and is caught, does not
poison the lock.  The map keeps the buffer of the dropped value, and dropping the cache drops it again. -/
theorem C99_late_clear (k : K) (hl : Storable (E.layout (ty k))) :
    let os : List (XPOp K) := [.cachePair false k false .absent ⟨id, fun _ => .refl _⟩ false,
      .clear true ⟨id, fun _ => .refl _⟩ (some 0) false]
    ¬ Sound ((runX same ty os).finish ty ⟨id, fun _ => .refl _⟩ none).1.log := by
  intro os hs
  have hv : (Heap.new : Heap E.U).alloc (ty k) = (⟨1, [.create 0 (ty k)]⟩, some 0) := by
    unfold Heap.alloc Heap.fill
    rw [validate_eq]
    simp [hl, Heap.create, Heap.new]
  have hlog : ((runX same ty os).finish ty ⟨id, fun _ => .refl _⟩ none).1.log =
      [.create 0 (ty k), .drop 0 (ty k)] ++ .drop 0 (ty k) :: [] := by
    simp [os, runX, stepX, cachePairX, clearX, PState.new, HState.new, hv, insertAt, seek, dropUntil, Heap.drop, finish]
  have := ((hs _ _ _ hlog).2 rfl).2 (.drop 0 (ty k)) (by simp) rfl
  exact this rfl

/-- the index of a key -/
def Find.of (eq : K → K → Bool) (m : HMap K Cell) (k : K) : Find := .at (m.findIdx fun e => eq e.1 k)

/-- the calls of C75: comparisons are right, qualifiers do not panic and the thread is not panicking -/
def POp.hostile (eq : K → K → Bool) (p : PState E K) : POp K → XPOp K
  | .cachePair k fails => .cachePair false k fails (.of eq p.st.map k) ⟨id, fun _ => .refl _⟩ false
  | .lookup k fails => .lookup k fails (.of eq p.st.map k) false
  | .debug ord failsAt => .debug ord failsAt
  | .clear ord failsAt => .clear false ord failsAt false

theorem seek_of (eq : K → K → Bool) (heq : ∀ a b, eq a b = true → same a b = true) (m : HMap K Cell) (k : K) :
    seek same m k (.of eq m k) = (HMap.get eq m k).map fun x => (m.findIdx fun e => eq e.1 k, x) := by
  induction m with
  | nil => rfl
  | cons e m ih =>
    simp only [seek, Find.of, HMap.get, List.findIdx_cons, List.find?_cons] at ih ⊢
    cases he : eq e.1 k with
    | true => simp [heq _ _ he]
    | false =>
      simp only [cond_false, List.getElem?_cons_succ]
      cases hf : m.find? fun e => eq e.1 k with
      | none =>
        rw [hf] at ih
        simpa using ih
      | some y =>
        rw [hf] at ih
        simp only [Option.map_some] at ih ⊢
        cases hg : m[m.findIdx fun e => eq e.1 k]? with
        | none => rw [hg] at ih; cases ih
        | some z =>
          rw [hg] at ih
          simp only [Option.bind_some] at ih ⊢
          split at ih
          · rename_i hz
            rw [if_pos hz]
            simp only [Option.some.injEq, Prod.mk.injEq, true_and] at ih
            rw [ih]
          · cases ih

/-- **C99** User code that behaves is a special case: the calls here are then those of C75 and C76. -/
theorem C99_agrees (eq : K → K → Bool) (heq : ∀ a b, eq a b = true ↔ a = b) (hr : ∀ a, same a a = true)
    (p : PState E K) (hn : (p.st.map.map (·.1)).Nodup) (o : POp K) :
    p.stepX same ty (o.hostile eq p) = p.step eq ty o := by
  have hsk := seek_of (same := same) eq (fun a b h => by rw [(heq a b).1 h]; exact hr b) p.st.map
  cases o with
  | debug ord failsAt => rfl
  | clear ord failsAt =>
    simp only [POp.hostile, stepX, clearX, PState.step, clear]
    cases p.poisoned with
    | true => rfl
    | false =>
      simp only [Bool.false_eq_true, if_false]
      rcases dropUntil ty p.st.heap (ord.list p.st.map) failsAt with ⟨h, _ | _⟩ <;> rfl
  | lookup k fails =>
    simp only [POp.hostile, stepX, lookupX, PState.step, lookup]
    cases p.poisoned with
    | true => rfl
    | false =>
      simp only [Bool.false_eq_true, if_false, Find.of]
      rw [show Find.at (p.st.map.findIdx fun e => eq e.1 k) = .of eq p.st.map k from rfl, hsk]
      cases HMap.get eq p.st.map k with
      | none => rfl
      | some x => cases fails <;> rfl
  | cachePair k fails =>
    simp only [POp.hostile, stepX, cachePairX, PState.step, cachePair]
    cases p.poisoned with
    | true => rfl
    | false =>
      cases fails with
      | true => rfl
      | false =>
        simp only [Bool.false_eq_true, if_false, Find.of]
        rcases p.st.heap.alloc (ty k) with ⟨h, _ | b⟩
        · rfl
        · simp only [HState.store, HMap.insert]
          rw [show Find.at (p.st.map.findIdx fun e => eq e.1 k) = .of eq p.st.map k from rfl, hsk]
          cases hg : HMap.get eq p.st.map k with
          | none => rfl
          | some x =>
            simp only [Option.map_some, insertAt, Bool.not_false, Bool.and_true]
            congr 3
            generalize p.st.map = m at hn
            clear hsk hg
            induction m with
            | nil => rfl
            | cons e m ih =>
              simp only [List.map_cons, List.nodup_cons] at hn
              simp only [List.findIdx_cons, HMap.set, List.map_cons]
              cases he : eq e.1 k with
              | true =>
                simp only [cond_true, List.modify_zero_cons, if_true, List.cons.injEq, true_and]
                conv_lhs => rw [← List.map_id m]
                refine List.map_congr_left fun y hy => ?_
                have hy' : ¬ eq y.1 k = true := fun h => hn.1 (by
                  rw [(heq _ _).1 he, ← (heq _ _).1 h]
                  exact List.mem_map.2 ⟨y, hy, rfl⟩)
                simp [hy']
              | false =>
                simp only [cond_false, List.modify_succ_cons, Bool.false_eq_true, if_false, List.cons.injEq, true_and]
                exact ih hn.2

/-- the call takes the write guard, in a thread that is not panicking already -/
def XPOp.mayPoison : XPOp K → Bool
  | .cachePair late _ _ _ _ _ | .clear late _ _ _ => !late
  | .lookup _ _ _ _ | .debug _ _ => false

/-- **C99** A call poisons the lock exactly if it writes, its thread was not panicking already, and it panics. -/
theorem C99_poisons (p : PState E K) (o : XPOp K) :
    (p.stepX same ty o).1.poisoned = (p.poisoned || (o.mayPoison && !(p.stepX same ty o).2)) := by
  cases hp : p.poisoned with
  | true => cases o <;> simp [stepX, cachePairX, lookupX, debug, clearX, hp]
  | false =>
    cases o with
    | debug ord failsAt => simp [stepX, debug, hp, XPOp.mayPoison]
    | clear late ord failsAt keyFails =>
      simp only [stepX, clearX, hp, Bool.false_eq_true, if_false]
      rcases dropUntil ty p.st.heap (ord.list p.st.map) failsAt with ⟨h, _ | _⟩ <;> cases late <;> cases keyFails <;> rfl
    | lookup k cloneFails f keyFails =>
      simp only [stepX, lookupX, hp, Bool.false_eq_true, if_false]
      cases f with
      | panics => simp [hp, XPOp.mayPoison]
      | absent => simp [seek, hp, XPOp.mayPoison]
      | «at» j =>
        simp only
        rcases seek same p.st.map k (.at j) with _ | ⟨_, x⟩
        · simp [hp, XPOp.mayPoison]
        · cases cloneFails <;> cases keyFails <;> rfl
    | cachePair late k cloneFails f left keyFails =>
      simp only [stepX, cachePairX, hp, Bool.false_eq_true, if_false]
      cases cloneFails with
      | true => cases late <;> rfl
      | false =>
        simp only [Bool.false_eq_true, if_false]
        rcases p.st.heap.alloc (ty k) with ⟨h, _ | b⟩
        · cases late <;> rfl
        · cases f <;> cases late <;> cases keyFails <;> rfl

/-- C99: a wrong comparison overwrites, a hash panics and loses an entry, a lookup finds the wrong entry; a panicking
thread goes on using the cache -/
example :
    let same : Nat × Nat → Nat × Nat → Bool := fun a b => decide (a.1 = b.1)
    let ty : Nat × Nat → demo.U := fun k => if k.1 = 0 then (demoInt 0).ty else (demoFlag 0).ty
    let os : List (XPOp (Nat × Nat)) := [.cachePair false (0, 0) false .absent ⟨id, fun _ => .refl _⟩ false,
      .cachePair false (0, 1) false (.at 0) ⟨id, fun _ => .refl _⟩ false,
      .cachePair false (1, 0) false (.at 0) ⟨id, fun _ => .refl _⟩ false,
      .lookup (0, 2) false (.at 0) true,
      .cachePair true (1, 1) false .panics ⟨List.tail, List.tail_sublist⟩ false]
    (∀ a b, same a b = true → ty a = ty b) ∧ (∀ o ∈ os, ¬ o.LateClear) ∧
    (runX same ty os).st.map = [((1, 0), 2)] ∧ (runX same ty os).poisoned = false := by
  refine ⟨?_, ?_, by decide +kernel, by decide +kernel⟩
  · intro a b h
    simp only [decide_eq_true_eq] at h
    simp only [h]
  · intro o ho
    simp only [List.mem_cons, List.not_mem_nil, or_false] at ho
    rcases ho with rfl | rfl | rfl | rfl | rfl <;> exact id

end BSQ
