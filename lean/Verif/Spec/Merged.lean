import Verif.Spec.SharedMap
import Verif.Spec.Multimap
/-!
# Programs in which stat types that share an address have become one

A program `P` whose stat types have addresses of their own, and other stat types, each taking the place of one of `P`:
it has the address and the value type of that one, and everything else of its own.  Several may take one place.
-/
namespace BSQ

/-- stat types without their addresses and value types -/
structure StatTypes where
  S : Type
  [decS : DecidableEq S]
  statLayout : S → Layout
  Sel : S → Type
  asIndex : {s : S} → Sel s → Nat
  fromIndex : (s : S) → Nat → Res (Sel s)
  statName : {s : S} → Sel s → String
  values : (s : S) → List (Sel s)

attribute [instance] StatTypes.decS

/-- the program with those stat types, `place` saying which stat type of `P` each takes the place of -/
abbrev Env.spread (P : Env) (N : StatTypes) (place : N.S → P.S) : Env where
  U := P.U
  El := P.El
  sv := P.sv
  layout := P.layout
  opLayout := P.opLayout
  S := N.S
  valTy v := P.valTy (place v)
  statLayout := N.statLayout
  Sel := N.Sel
  asIndex := N.asIndex
  fromIndex := N.fromIndex
  statName := N.statName
  values := N.values

variable {P : Env} {N : StatTypes} {place : N.S → P.S} {Q : Type}

/-- the stat whose place is taken -/
abbrev StatInst.merged (s : StatInst (P.spread N place)) : StatInst P := ⟨place s.vt, s.index⟩

/-- the same bytes -/
def Buf.merged : Buf (P.spread N place) → Buf P
  | .val u x => .val u x
  | .op u o => .op u o

/-- an entry of a map -/
def Entry.merged (e : Entry (P.spread N place) Q (Buf (P.spread N place))) : Entry P Q (Buf P) :=
  ⟨e.stat.merged, e.qual, e.buf.merged⟩

/-- a map -/
def StatMap.merged (m : StatMap (P.spread N place) Q) : StatMap P Q := List.map Entry.merged m

/-- the same call -/
def MapOp.merged : MapOp (P.spread N place) Q → MapOp P Q
  | .insert q s v => .insert q s.merged v
  | .insertBase q s b => .insertBase q s.merged b
  | .modify q s o => .modify q s.merged o
  | .modifyWith q s f => .modifyWith q s.merged f
  | .getMut q s f => .getMut q s.merged f
  | .iterMut s f => .iterMut s.merged f
  | .remove q s => .remove q s.merged
  | .removeAll s => .removeAll s.merged
  | .clear => .clear

/-- the same call -/
def MultiOp.merged : MultiOp (P.spread N place) Q → MultiOp P Q
  | .one o => .one o.merged
  | .extend T items => .extend (place T) items
  | .collect T items => .collect (place T) items

namespace Shared
variable {E : Env} [Ord Q] (loc : E.S → Nat)

/-- a call on the code with arbitrary addresses; `collect` builds a new map -/
def multiStep (m : StatMap E Q) : MultiOp E Q → Res (StatMap E Q)
  | .one o => step loc m o
  | .extend T items => extend loc m T items
  | .collect T items => fromIter loc T items

/-- a history of calls -/
def multiRun (m : StatMap E Q) : List (MultiOp E Q) → Res (StatMap E Q)
  | [] => .ok m
  | o :: os => multiStep loc m o >>= fun m' => multiRun m' os
end Shared
end BSQ
