import Verif.Spec.Demo
/-!
# tests/qualifier.rs on the model

Tests, not proofs: the assertions of the repository's own test are evaluated on the model, which shows that the
model agrees with the code where the authors say what the code does.
-/
namespace BSQ.Tests.Qualifiers

abbrev Q := BitVec 32
abbrev Fire : Q := 1
abbrev Water : Q := 2
abbrev Earth : Q := 4
abbrev Air : Q := 8
abbrev Magic : Q := 16
abbrev Slash : Q := 32
abbrev Blast : Q := 64

abbrev none : Qualifier Q := .none
abbrev fire : Qualifier Q := .ofAll Fire
abbrev fireMagic : Qualifier Q := .ofAll (Fire ||| Magic)
abbrev elemental : Qualifier Q := .ofAny (Fire ||| Water ||| Earth ||| Air)
abbrev elementalMagic : Qualifier Q := elemental.andAllOf Magic
abbrev queryElemental : QualifierQuery Q := .exact (Fire ||| Water ||| Earth ||| Air) 0
abbrev allElements : Qualifier Q := .ofAll (Fire ||| Water ||| Earth ||| Air)

example : none.qualifiesAs .none = true := by decide
example : none.qualifiesAs (.aggregate (Fire)) = true := by decide
example : none.qualifiesAs (.aggregate (Fire ||| Water)) = true := by decide
example : none.qualifiesAs (.aggregate (Fire ||| Magic)) = true := by decide
example : none.qualifiesAs (.aggregate (Water ||| Magic)) = true := by decide
example : none.qualifiesAs (.aggregate (Water ||| Magic)) = true := by decide
example : fire.qualifiesAs .none = false := by decide
example : fire.qualifiesAs (.aggregate (Fire)) = true := by decide
example : fire.qualifiesAs (.aggregate (Fire ||| Water)) = true := by decide
example : fire.qualifiesAs (.aggregate (Fire ||| Magic)) = true := by decide
example : fire.qualifiesAs (.aggregate (Water ||| Magic)) = false := by decide
example : fireMagic.qualifiesAs .none = false := by decide
example : fireMagic.qualifiesAs (.aggregate (Fire)) = false := by decide
example : fireMagic.qualifiesAs (.aggregate (Fire ||| Water)) = false := by decide
example : fireMagic.qualifiesAs (.aggregate (Fire ||| Magic)) = true := by decide
example : fireMagic.qualifiesAs (.aggregate (Fire ||| Water ||| Magic)) = true := by decide
example : fireMagic.qualifiesAs (.aggregate (Water ||| Magic)) = false := by decide
example : elemental.qualifiesAs .none = false := by decide
example : elemental.qualifiesAs (.aggregate (Fire)) = true := by decide
example : elemental.qualifiesAs (.aggregate (Water)) = true := by decide
example : elemental.qualifiesAs (.aggregate (Earth)) = true := by decide
example : elemental.qualifiesAs (.aggregate (Air)) = true := by decide
example : elemental.qualifiesAs (.aggregate (Fire ||| Water)) = true := by decide
example : elemental.qualifiesAs (.aggregate (Earth ||| Air)) = true := by decide
example : elemental.qualifiesAs (.aggregate (Fire ||| Water ||| Earth ||| Air)) = true := by decide
example : elemental.qualifiesAs (.aggregate (Magic)) = false := by decide
example : elemental.qualifiesAs (.aggregate (Magic ||| Blast)) = false := by decide
example : elemental.qualifiesAs (.aggregate (Fire ||| Magic)) = true := by decide
example : elemental.qualifiesAs (.aggregate (Fire ||| Air ||| Magic)) = true := by decide
example : elementalMagic.qualifiesAs .none = false := by decide
example : elementalMagic.qualifiesAs (.aggregate (Fire)) = false := by decide
example : elementalMagic.qualifiesAs (.aggregate (Water)) = false := by decide
example : elementalMagic.qualifiesAs (.aggregate (Earth)) = false := by decide
example : elementalMagic.qualifiesAs (.aggregate (Air)) = false := by decide
example : elementalMagic.qualifiesAs (.aggregate (Fire ||| Magic)) = true := by decide
example : elementalMagic.qualifiesAs (.aggregate (Water ||| Magic)) = true := by decide
example : elementalMagic.qualifiesAs (.aggregate (Earth ||| Magic)) = true := by decide
example : elementalMagic.qualifiesAs (.aggregate (Air ||| Magic)) = true := by decide
example : elementalMagic.qualifiesAs (.aggregate (Fire ||| Water)) = false := by decide
example : elementalMagic.qualifiesAs (.aggregate (Earth ||| Air)) = false := by decide
example : elementalMagic.qualifiesAs (.aggregate (Fire ||| Water ||| Earth ||| Air)) = false := by decide
example : elementalMagic.qualifiesAs (.aggregate (Magic)) = false := by decide
example : elemental.qualifiesAs (.aggregate (Magic ||| Blast)) = false := by decide
example : elementalMagic.qualifiesAs (.aggregate (Fire ||| Magic)) = true := by decide
example : elementalMagic.qualifiesAs (.aggregate (Fire ||| Air ||| Magic)) = true := by decide
example : none.qualifiesAs (.exact (0) (Fire)) = false := by decide
example : elemental.qualifiesAs (.exact (0) (Fire)) = false := by decide
example : fire.qualifiesAs (.exact (0) (Fire)) = true := by decide
example : elemental.qualifiesAs queryElemental = true := by decide
example : none.qualifiesAs queryElemental = false := by decide
example : allElements.qualifiesAs queryElemental = false := by decide
example : fire.qualifiesAs queryElemental = false := by decide
example : fireMagic.qualifiesAs queryElemental = false := by decide

/-- the stat `S` (tests/qualifier.rs:20-22), with the default rounding and scale -/
abbrev prog : Env where
  U := Unit
  El _ := StatIntPercentAdditive
  sv _ := statIntPercentAdditive ⟨.i32, .prim, .debug⟩ .truncate 100
  layout _ := Layout.mk 16 8
  opLayout _ := ⟨8, 4⟩
  S := Unit
  valTy s := s
  statLayout _ := ⟨0, 1⟩
  Sel _ := Unit
  asIndex _ := 0
  fromIndex _ _ := .ok ()
  statName _ := "S"
  values _ := [()]

def addr : Addr prog := ⟨fun _ => 4096, fun _ => rfl⟩

abbrev S : StatInst prog := ⟨(), 0⟩

def map1 : Res (StatMap prog Q) := do
  let m ← StatMap.insertBase addr .new none S (1 : Int)
  let m ← StatMap.insertBase addr m fire S (2 : Int)
  StatMap.insertBase addr m fireMagic S (4 : Int)

example : (map1 >>= fun m => StatMap.evalStat addr m .none S) = .ok (1 : Int) := by decide +kernel
example : (map1 >>= fun m => StatMap.evalStat addr m (.aggregate Fire) S) = .ok (3 : Int) := by decide +kernel
example : (map1 >>= fun m => StatMap.evalStat addr m (.aggregate (Fire ||| Magic)) S) = .ok (7 : Int) := by
  decide +kernel

def map2 : Res (StatMap prog Q) := do
  let m ← StatMap.modify addr .new none S (.add (2 : Int))
  let m ← StatMap.modify addr m fire S (.mul (100 : Int))
  StatMap.modify addr m fireMagic S (.max (2 : Int))

example : (map2 >>= fun m => StatMap.evalStat addr m .none S) = .ok (2 : Int) := by decide +kernel
example : (map2 >>= fun m => StatMap.evalStat addr m (.aggregate Fire) S) = .ok (4 : Int) := by decide +kernel
example : (map2 >>= fun m => StatMap.evalStat addr m (.aggregate (Fire ||| Magic)) S) = .ok (2 : Int) := by
  decide +kernel

end BSQ.Tests.Qualifiers
