import Verif.Model.DeriveAttr
/-!
# What is written in `#[stat(...)]`
-/
namespace BSQ
namespace Derive

/-- a well-formed item of the list: `value = "T"`, or a word other than `value` -/
inductive Meta where
  | value (s : String)
  | word (p : String) (h : p ≠ "value")

/-- its tokens -/
def Meta.toks : Meta → List Tok
  | .value s => [.path "value", .eq, .str s]
  | .word p _ => [.path p]

/-- the types it names -/
def Meta.names : Meta → List String
  | .value s => [s]
  | .word _ _ => []

/-- `Reads toks names bad`: items are read from the front of `toks` as long as they are well-formed and separated
by commas; they name the types `names`.  `bad`: the reading ended at a `value =` without a string. -/
inductive Reads : List Tok → List String → Bool → Prop where
  /-- nothing, or nothing that starts an item -/
  | stop {toks} (h : ∀ p r, toks ≠ .path p :: r) : Reads toks [] false
  /-- `value` without `=` -/
  | noEq {rest} (h : ∀ r, rest ≠ .eq :: r) : Reads (.path "value" :: rest) [] false
  /-- `value =` without a string -/
  | noStr {rest} (h : ∀ s r, rest ≠ .str s :: r) : Reads (.path "value" :: .eq :: rest) [] true
  /-- an item without a comma behind it -/
  | last {rest} (i : Meta) (h : ∀ r, rest ≠ .comma :: r) : Reads (i.toks ++ rest) i.names false
  /-- an item, a comma, and more -/
  | more {rest names bad} (i : Meta) (h : Reads rest names bad) :
      Reads (i.toks ++ .comma :: rest) (i.names ++ names) bad

/-- the lists of tokens in the `#[stat(...)]` attributes, in order -/
def statArgs (attrs : List Attr) : List (List Tok) :=
  (attrs.filter (fun a => a.path == "stat")).filterMap (·.args)

/-- a list of well-formed items with commas between them -/
def render : List Meta → List Tok
  | [] => []
  | [i] => i.toks
  | i :: j :: l => i.toks ++ .comma :: render (j :: l)

end Derive
end BSQ
