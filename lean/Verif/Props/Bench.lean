import Verif.Proofs.Bench
/-!
# The benchmark compares two ways to compute the same
-/
namespace BSQ
open KeyBefore FlagSpec Contrib
variable {E : Env} {Q : Type} [BitFlags Q] [FlagSet Q] [Ord Q] [Std.TransOrd Q] [Std.LawfulEqOrd Q] (A : Addr E)

/-- **C137** Whatever base values are inserted for a stat, under whatever qualifiers, in whatever order and however
often, every query of the map gives what the loop over a `BTreeMap` filled by the same insertions gives, panics
included, if the operation the loop makes of a base value gives the stat of that base value. -/
theorem C137_naive (s : StatInst E) (hs : Storable (E.layout s.ty)) (items : List (Qualifier Q × s.sv.BaseT))
    (op : s.sv.BaseT → StatOp s.sv) (hop : ∀ x ∈ items, (op x.2).intoStat = .ok (s.sv.fromBase x.2)) :
    ∃ m, Bench.fillMap A s items = .ok m ∧ ∀ query,
      StatMap.queryStat A m query s = Bench.naive s.sv op query (Bench.fillTree items) ∧
      StatMap.evalStat A m query s =
        (Bench.naive s.sv op query (Bench.fillTree items) >>= fun v => s.sv.eval v) := by
  obtain ⟨hsorted, a, ha, hat⟩ := Bench.fill_rel (E := E) s hs items PMap.empty [] List.Pairwise.nil (by
    intro q v; simp [PMap.empty])
  have hmem := Bench.mem_fill items ([] : BTree (Qualifier Q) s.sv.BaseT) List.Pairwise.nil
  have h6 := C06_behaves_as_map A (items.map fun x => MapOp.insertBase x.1 s x.2)
  have ha' : PMap.run (items.map fun x => MapOp.insertBase x.1 s x.2) = .ok a := ha
  rw [ha'] at h6
  cases hm : StatMap.run A (items.map fun x => MapOp.insertBase x.1 s x.2) with
  | error e => rw [hm] at h6; exact absurd h6 (by simp)
  | ok m =>
    refine ⟨m, (Bench.fillMap_eq A s items StatMap.new).trans hm, fun query => ?_⟩
    obtain ⟨a', L, ha'', hL, hn, hLm, hq, he⟩ := C08_query_joins_matching A _ m hm query s hs
    have haa : a' = a := by rw [ha'] at ha''; injection ha'' with h; exact h.symm
    subst haa
    -- the list that the loop goes through
    let T := (Bench.fillTree items).filter (fun e => e.1.qualifiesAs query)
    have hTs : (T.map (·.1)).Pairwise (fun a b => Qualifier.cmp a b = .lt) := 
      List.Pairwise.sublist (List.Sublist.map _ List.filter_sublist) hsorted
    have hnaive : Bench.naive s.sv op query (Bench.fillTree items) =
        joinList s.sv s.sv.default ((T.map (·.2)).map s.sv.fromBase) := by
      refine Bench.naive_eq s.sv op _ ?_ _
      intro b hb
      obtain ⟨x, hx, rfl⟩ := List.mem_map.1 hb
      rcases hmem x (List.mem_of_mem_filter hx) with h | h
      · exact hop x h
      · cases h
    have hLT : L = T.map (fun x => (x.1, s.sv.fromBase x.2)) := by
      have p1 : L.Pairwise (fun x y => Qualifier.cmp x.1 y.1 = .lt) := by
        have := List.pairwise_map.1 hL
        exact this.imp (fun h => (qualBefore_iff _ _).1 h)
      have p2 : (T.map (fun x => (x.1, s.sv.fromBase x.2))).Pairwise (fun x y => Qualifier.cmp x.1 y.1 = .lt) :=
        List.pairwise_map.2 (List.pairwise_map.1 hTs)
      have irr : ∀ (x y : Qualifier Q × s.Val), Qualifier.cmp x.1 y.1 = .lt → x ≠ y := by
        rintro x y h rfl
        rw [Std.ReflCmp.compare_self (cmp := Qualifier.cmp)] at h; cases h
      have hperm : L.Perm (T.map (fun x => (x.1, s.sv.fromBase x.2))) := by
        refine (List.perm_ext_iff_of_nodup hn (p2.imp (fun h => irr _ _ h))).2 ?_
        rintro ⟨q, v⟩
        rw [hLm, hat, List.mem_map]
        constructor
        · rintro ⟨⟨b, hb, rfl⟩, hmq⟩
          exact ⟨(q, b), List.mem_filter.2 ⟨hb, (qualifiesAs_iff q query).2 hmq⟩, rfl⟩
        · rintro ⟨⟨q', b⟩, hx, hxe⟩
          injection hxe with h1 h2
          subst h1 h2
          obtain ⟨h1, h2⟩ := List.mem_filter.1 hx
          exact ⟨⟨b, h1, rfl⟩, (qualifiesAs_iff _ query).1 h2⟩
      refine hperm.eq_of_pairwise (le := fun x y => Qualifier.cmp x.1 y.1 = .lt) ?_ p1 p2
      intro x y _ _ h1 h2
      have := Std.TransCmp.lt_trans h1 h2
      rw [Std.ReflCmp.compare_self (cmp := Qualifier.cmp)] at this; cases this
    have hjoin : joinList s.sv s.sv.default (L.map (·.2)) =
        joinList s.sv s.sv.default ((T.map (·.2)).map s.sv.fromBase) := by
      rw [hLT]; simp [Function.comp_def]
    exact ⟨by rw [hq, hjoin, hnaive], by rw [he, hjoin, hnaive]⟩

/-- C137: `Add` is such an operation for `StatInt`, `StatIntFraction`, `StatIntFloatMul` and
`StatIntPercentAdditive`, whatever the arithmetic. -/
theorem C137_add (t : NumTy) (b : Int) (hb : t.prim.InRange b) :
    (StatOp.add b : StatOp (statInt t)).intoStat = .ok ((statInt t).fromBase b) ∧
    (∀ R, (StatOp.add b : StatOp (statIntFraction t R)).intoStat = .ok ((statIntFraction t R).fromBase b)) ∧
    (∀ (F : Type) (O : FloatOps F) toF ofF R, (StatOp.add b : StatOp (statIntFloatMul t O toF ofF R)).intoStat =
      .ok ((statIntFloatMul t O toF ofF R).fromBase b)) ∧
    (∀ R S, (StatOp.add b : StatOp (statIntPercentAdditive t R S)).intoStat =
      .ok ((statIntPercentAdditive t R S).fromBase b)) := by
  have h : t.add 0 b = .ok b := by
    rw [NumTy.add, Int.zero_add]
    exact NumTy.fit_inRange hb
  refine ⟨?_, fun R => ?_, fun F O toF ofF R => ?_, fun R S => ?_⟩ <;>
  · simp only [StatOp.intoStat, StatOp.writeTo, h, Res.bind_ok]

/-- C137: for `StatIntPercent` it is not, as its default counts as one: the loop would count one more for each
entry. -/
theorem C137_percent_differs :
    let D := statIntPercent ⟨.i32, .prim, .debug⟩ .truncate 100
    (StatOp.add (5 : Int) : StatOp D).intoStat ≠ .ok (D.fromBase (5 : Int)) := by
  decide

/-- **C137** The benchmark, in debug and release builds: for `n` entries and the query for the lowest `k` flags, both
ways give the number of entries whose flags are among them, if its hundredfold fits into the type. -/
theorem C137_bench (b : Build) (A : Addr (Bench.prog b)) (n k : Nat) (hn : n ≤ 2 ^ 32) (hk : k ≤ 32)
    (hfit : 100 * (min n (2 ^ k) : Nat) + 100 ≤ 2147483647) :
    ∃ m, Bench.fillMap A (Bench.S b) (Bench.items 32 n) = .ok m ∧
      let query : QualifierQuery (BitVec 32) := .aggregate (BitVec.ofNat 32 (2 ^ k - 1))
      StatMap.evalStat A m query (Bench.S b) = .ok (((min n (2 ^ k) : Nat) : Int) : Int) ∧
      (Bench.naive (Bench.S b).sv (fun x : Int => StatOp.add (x : Int)) query (Bench.fillTree (Bench.items 32 n)) >>=
        fun v => (Bench.S b).sv.eval v) = .ok (((min n (2 ^ k) : Nat) : Int) : Int) := by
  have hr1 : IntTy.i32.InRange 1 := by decide
  have hop : ∀ x ∈ Bench.items 32 n, (StatOp.add (x.2 : Int) : StatOp (Bench.S b).sv).intoStat =
      .ok ((Bench.S b).sv.fromBase x.2) := by
    intro x hx
    obtain ⟨i, _, rfl⟩ := List.mem_map.1 hx
    exact (C137_add ⟨.i32, .prim, b⟩ 1 hr1).2.2.2 .truncate 100
  obtain ⟨m, hm, hq⟩ := C137_naive A (Bench.S b) (by show Storable ⟨16, 8⟩; exact ⟨by decide, by decide⟩) (Bench.items 32 n)
    (fun x : Int => StatOp.add (x : Int)) hop
  refine ⟨m, hm, ?_⟩
  intro query
  have key : (Bench.naive (Bench.S b).sv (fun x : Int => StatOp.add (x : Int)) query
      (Bench.fillTree (Bench.items 32 n)) >>= fun v => (Bench.S b).sv.eval v) =
      .ok (((min n (2 ^ k) : Nat) : Int) : Int) := by
    generalize hc : min n (2 ^ k) = c at hfit
    have hnaive : Bench.naive (Bench.S b).sv (fun x : Int => StatOp.add (x : Int)) query
        (Bench.fillTree (Bench.items 32 n)) = (Bench.ones ⟨.i32, .prim, b⟩ c).run := by
      rw [Bench.ones_run]
      unfold Bench.naive
      rw [Bench.filtered hn hk, hc]
      have := Bench.naive_eq (Bench.S b).sv (fun x : Int => StatOp.add (x : Int))
        ((Bench.items 32 c).map (·.2)) (by
          intro x hx
          obtain ⟨y, hy, rfl⟩ := List.mem_map.1 hx
          obtain ⟨i, _, rfl⟩ := List.mem_map.1 hy
          exact (C137_add ⟨.i32, .prim, b⟩ 1 hr1).2.2.2 .truncate 100) (Bench.S b).sv.default
      refine this.trans ?_
      congr 1
      simp [Bench.items, Function.comp_def, List.map_const']
    rw [hnaive]
    let D : NumTy := ⟨.i32, .prim, .debug⟩
    have hhi : D.prim.hi = 2147483647 := by rfl
    have hlo : D.prim.lo = -2147483648 := by rfl
    have hleaves := Bench.ones_leaves D c
    have hC : (Bench.ones D c).leaves.map statIntPercentAdditive.contrib = List.replicate c (.add 1) := by
      rw [hleaves, List.map_replicate]; rfl
    have hadd : addends (List.replicate c (Contrib.add 1 : Contrib ℤ ℤ ℤ)) = List.replicate c 1 := by
      clear * -
      induction c with
      | zero => rfl
      | succ c ih => simp [List.replicate_succ, addends, ih]
    have hmul : mults (List.replicate c (Contrib.add 1 : Contrib ℤ ℤ ℤ)) = [] := by
      clear * -
      induction c with
      | zero => rfl
      | succ c ih => simp [List.replicate_succ, mults, ih]
    have htot : total (List.replicate c (Contrib.add 1 : Contrib ℤ ℤ ℤ)) = c := by
      clear * -
      induction c with
      | zero => rfl
      | succ c ih => simp [List.replicate_succ, total, ih]; omega
    have hms : multSum (List.replicate c (Contrib.add 1 : Contrib ℤ ℤ ℤ)) = 0 := by
      clear * -
      induction c with
      | zero => rfl
      | succ c ih => simp [List.replicate_succ, multSum, ih]
    have hfl : ∀ x : ℤ, floorOf x (List.replicate c (Contrib.add 1 : Contrib ℤ ℤ ℤ)) = x := by
      clear * -
      intro x
      induction c with
      | zero => rfl
      | succ c ih => simp [List.replicate_succ, floorOf, ih]
    have hcap : ∀ x : ℤ, capOf x (List.replicate c (Contrib.add 1 : Contrib ℤ ℤ ℤ)) = x := by
      clear * -
      intro x
      induction c with
      | zero => rfl
      | succ c ih => simp [List.replicate_succ, capOf, ih]
    have habs : absSum (List.replicate c (1 : ℤ)) = c := by simp [absSum]
    have h20 := C20_no_overflow D rfl (by decide) (.inl (by decide)) .truncate 100 (by decide) (by decide)
      (Bench.ones D c) (Bench.ones_noReset D c) (by
        rw [hleaves]
        intro o ho
        rw [List.eq_of_mem_replicate ho]
        exact hr1)
    simp only [hC, hadd, hmul, htot, hms, hfl, hcap, habs, hhi, hlo] at h20
    obtain ⟨v, z, hrun, hz, hev⟩ := h20 (by omega) (by simp [absSum]) (by simp [absSum]; omega)
    have hzc : z = c := by
      refine C31_spec_unique .truncate _ z c hz ?_
      have : ((c : ℤ) : ℚ) * (((100 : ℤ) : ℚ) + ((0 : ℤ) : ℚ)) / ((100 : ℤ) : ℚ) = c := by push_cast; ring
      rw [this]
      refine ⟨by simp, by simp, ?_⟩
      push_cast
      positivity
    subst hzc
    have hclamp : clampTo (c : ℤ) (-2147483648) 2147483647 = c := by
      simp only [clampTo]
      omega
    rw [hclamp] at hev
    have hsim := C61_statIntPercentAdditive ⟨.i32, .prim, b⟩ .truncate 100
    have hrun' : (Bench.ones ⟨.i32, .prim, b⟩ c).run = .ok v := by
      rw [← Bench.ones_retype (NumTy.checked ⟨.i32, .prim, b⟩) ⟨.i32, .prim, b⟩ c]
      exact hsim.assembles (Bench.ones (NumTy.checked ⟨.i32, .prim, b⟩) c) v hrun
    rw [hrun', Res.bind_ok]
    exact hsim.evaluates v (c : ℤ) hev
  exact ⟨(hq query).2.trans key, key⟩

/-- the benchmark as it is: 1024 entries, of which 256 match -/
example (b : Build) (A : Addr (Bench.prog b)) : ∃ m, Bench.fillMap A (Bench.S b) (Bench.items 32 1024) = .ok m ∧
    StatMap.evalStat A m (.aggregate (255 : BitVec 32)) (Bench.S b) = .ok (256 : Int) := by
  obtain ⟨m, h1, h2, _⟩ := C137_bench b A 1024 8 (by decide) (by decide) (by decide)
  exact ⟨m, h1, h2⟩

/-- inserting out of order, and twice under one qualifier -/
example : Bench.fillTree [(⟨3#8, 0#8⟩, (5 : Int)), (⟨0, 1⟩, 7), (⟨3, 0⟩, 2)] = [(⟨0, 1⟩, 7), (⟨3, 0⟩, 2)] := by rfl
example : (Bench.fillMap ⟨fun _ => 0, fun _ => rfl⟩ (Bench.S .release)
      [(⟨3#8, 0#8⟩, (5 : Int)), (⟨0, 1⟩, 7), (⟨3, 0⟩, 2)] >>= fun m =>
      StatMap.evalStat ⟨fun _ => 0, fun _ => rfl⟩ m (.aggregate 1) (Bench.S .release)) = .ok (9 : Int) := by rfl

end BSQ
