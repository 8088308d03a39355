import Verif.Model.Querier
import Verif.Model.MatchStat
import Verif.Model.Layout
import Verif.Model.Types.Misc
/-!
# The stats and the stream of the crate's own test module  (src/lib.rs:250-377)

`IntStat` and `FlagsStat` have four variants each, numbered from 0 (`#[repr(u64)]`, `IntoPrimitive`); `FromPrimitive` with
`#[default] A` reads every other number as the first.  `true` stands for `IntStat`, `false` for `FlagsStat`.
-/
namespace BSQ.CrateTest

/-- `IntStat::Value` (lib.rs:275), in a debug build, and `FlagsStat::Value` (lib.rs:309) -/
abbrev El : Bool → Type
  | true => StatIntPercentAdditive
  | false => StatFlags (BitVec 32)

abbrev sv : (u : Bool) → StatValue (El u)
  | true => statIntPercentAdditive ⟨.i32, .prim, .debug⟩ .truncate 100
  | false => statFlags (BitVec 32)

/-- the names of the variants (lib.rs:267-272, 301-306; `IntoStaticStr`) -/
def name : Bool → Fin 4 → String
  | true, i => ["A", "B", "C", "D"].getD i ""
  | false, i => ["E", "F", "G", "H"].getD i ""

/-- the two stat types (lib.rs:265-331).  The layout of `StatOperation` is that of its largest payload with a tag. -/
abbrev env : Env where
  U := Bool
  El := El
  sv := sv
  layout u := match u with
    | true => Layout.statIntPercentAdditive 4
    | false => Layout.statFlags (Layout.prim 4)
  opLayout _ := ⟨8, 4⟩
  S := Bool
  valTy s := s
  statLayout _ := ⟨8, 8⟩
  Sel _ := Fin 4
  asIndex x := x.val
  fromIndex _ i := .ok (if h : i < 4 then ⟨i, h⟩ else 0)
  statName {s} x := name s x
  values _ := [0, 1, 2, 3]

/-- the arms of the `match_stat!` (lib.rs:343-365) -/
def arms : List (Arm env Unit) :=
  [.stat (T := true) (0 : Fin 4) fun st v => (sv true).add v (1 : Int) >>= fun v => .ok (st, v),
   .stat (T := true) (1 : Fin 4) fun st v => (sv true).add v (2 : Int) >>= fun v => .ok (st, v),
   .ty true fun st x v => (sv true).add v ((x.val : Nat) : Int) >>= fun v => .ok (st, v),
   .stat (T := false) (0 : Fin 4) fun st v => (sv false).or v (1 : BitVec 32) >>= fun v => .ok (st, v),
   .stat (T := false) (1 : Fin 4) fun st v => (sv false).not v (2 : BitVec 32) >>= fun v => .ok (st, v),
   .ty false fun st x v => (sv false).or v (BitVec.ofNat 32 x.val) >>= fun v => .ok (st, v)]

variable {Q Ent : Type}

/-- `impl ComponentStream<u32> for &X` (lib.rs:333-375), of which the entities in `has` have one -/
def X (A : Addr env) (has : Ent → Bool) : CStream env Q Ent where
  Item := Unit
  query e := if has e then some () else none
  stream _ _ _ p := Prog.lift (matchStat A none arms () p >>= fun r => .ok r.2)
  attr _ _ _ := .ret false

end BSQ.CrateTest
