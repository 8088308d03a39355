import Verif.Model.StatMap
import Verif.Model.Ieee
/-!
# Serialisation of `StatMap`  (src/stat_map.rs:64-70, 380-455; src/stat.rs:248-275)

`serde` formats are represented by the data they carry.  Syntax of concrete formats is not modelled.
-/
namespace BSQ

/-- serde's data model, as far as the crate looks into it -/
inductive Data where
  | unit
  | bool (b : Bool)
  | int (i : Int)
  | float (x : Fl)
  | str (s : String)
  | seq (l : List Data)
  /-- a struct or map with string keys -/
  | fields (l : List (String × Data))
  /-- an enum variant, identified by name or by number, without or with a payload -/
  | unitVariant (tag : String ⊕ Nat)
  | newtypeVariant (tag : String ⊕ Nat) (d : Data)
  /-- any other datum -/
  | other (l : List Int)

/-- A format.
* `named`: structs are written with field names and variants with their names (JSON), rather than by position
  and number (postcard).
* `strictEnd`: the format reports sequence elements the visitor did not consume (e.g. JSON does). -/
structure Format where
  named : Bool
  strictEnd : Bool

/-- derived `Serialize` of a struct with these fields -/
def serStruct (f : Format) (names : List String) (vals : List Data) : Data :=
  if f.named then .fields (names.zip vals) else .seq vals

/-- the field of a name; it must occur exactly once (derived `visit_map` reports missing and duplicate
fields) -/
def deField (fs : List (String × Data)) (n : String) : Option Data :=
  match fs.filter (fun f => f.1 == n) with
  | [f] => some f.2
  | _ => none

/-- elements of a tuple or of a struct given by position: one for each field; what follows is ignored unless
the format complains -/
def deTuple (f : Format) (n : Nat) (l : List Data) : Option (List Data) :=
  if l.length < n then none
  else if f.strictEnd && decide (n < l.length) then none
  else some (l.take n)

/-- derived `Deserialize` of a struct with these fields: fields by name in any order, unknown names ignored,
or fields by position -/
def deStruct (f : Format) (names : List String) : Data → Option (List Data)
  | .fields fs => names.mapM (deField fs)
  | .seq l => deTuple f names.length l
  | _ => none

variable {E : Env} {Q : Type}

/-- What a program brings to (de)serialisation.
* `serQ`/`deQ`, `ser`/`de`: the `Serialize`/`Deserialize` impls of the qualifier and of the value types.
* `supported`: the vtable was built by `StatVTable::of` (stat.rs:36-65) rather than `no_serialize`
  (stat.rs:67-96).
* `fmt`: the format. -/
structure Serde (E : Env) (Q : Type) where
  serQ : Qualifier Q → Data
  deQ : Data → Option (Qualifier Q)
  ser : (u : E.U) → E.El u → Data
  de : (u : E.U) → Data → Option (E.El u)
  supported : E.S → Bool
  fmt : Format

/-- `StatDeserializers::concrete` (plugin.rs:240-242): a hash map from names to stats -/
abbrev Registry (E : Env) := String → Option (StatInst E)

/-- where deserialisation runs: outside a `bevy_serde_lens` scope, in a world without the
`StatDeserializers` resource, or in a world with it (stat.rs:263-264) -/
inductive DeScope (E : Env) where
  | noScope
  | noResource
  | registry (r : Registry E)

namespace Serde
variable (X : Serde E Q)

/-- the vtable entry `as_serialize` (stat.rs:51, 86) -/
def asSerialize (s : StatInst E) (b : Buf E) : Res Data :=
  if X.supported s.vt then do
    let v ← b.read s.ty
    .ok (X.ser s.ty v)
  else .error .panic

/-- `Serialize for StatMapEntry` (stat_map.rs:380-388) -/
def serEntry (e : Entry E Q (Buf E)) : Res Data := do
  let n ← e.stat.name
  let v ← X.asSerialize e.stat e.buf
  .ok (.seq [X.serQ e.qual, .str n, v])

/-- all entries in order -/
def serEntries : List (Entry E Q (Buf E)) → Res (List Data)
  | [] => .ok []
  | e :: l => do
    let d ← X.serEntry e
    let ds ← serEntries l
    .ok (d :: ds)

/-- derived `Serialize for StatMap` (stat_map.rs:64): a struct with the field `inner` -/
def serMap (m : StatMap E Q) : Res Data := do
  let ds ← X.serEntries m
  .ok (serStruct X.fmt ["inner"] [.seq ds])

/-- `Deserialize for StatInst` (stat.rs:257-275).  `ok none` is a serde error. -/
def deStat (sc : DeScope E) (d : Data) : Res (Option (StatInst E)) :=
  match d with
  | .str n =>
    match sc with
    | .noScope => .ok none
    | .noResource => .error .panic
    | .registry r => .ok (r n)
  | _ => .ok none

/-- the vtable entry `deserialize` (stat.rs:52-56, 87) -/
def deValue (s : StatInst E) (d : Data) : Res (Option (Buf E)) :=
  if X.supported s.vt then do
    validate (E.layout s.ty)
    match X.de s.ty d with
    | none => .ok none
    | some v => do
      let b ← Buf.from_ s.ty v
      .ok (some b)
  else .error .panic

/-- the third element and the end of the sequence (stat_map.rs:437-444) -/
def deThird (q : Qualifier Q) (s : StatInst E) : List Data → Res (Option (Entry E Q (Buf E)))
  | [] => .ok none
  | d :: rest => do
    let b ← X.deValue s d
    match b with
    | none => .ok none
    | some b => if X.fmt.strictEnd && !rest.isEmpty then .ok none else .ok (some ⟨s, q, b⟩)

/-- the second element (stat_map.rs:434-436) -/
def deSecond (sc : DeScope E) (q : Qualifier Q) : List Data → Res (Option (Entry E Q (Buf E)))
  | [] => .ok none
  | d :: rest => do
    let s ← deStat sc d
    match s with
    | none => .ok none
    | some s => X.deThird q s rest

/-- `Deserialize for StatMapEntry` through `TupleSeed::visit_seq` (stat_map.rs:390-400, 427-445) -/
def deEntry (sc : DeScope E) (d : Data) : Res (Option (Entry E Q (Buf E))) :=
  match d with
  | .seq [] => .ok none
  | .seq (d :: rest) =>
    match X.deQ d with
    | none => .ok none
    | some q => X.deSecond sc q rest
  | _ => .ok none

/-- `Vec<StatMapEntry>`: entries in the order found, the first failure wins -/
def deEntries (sc : DeScope E) : List Data → Res (Option (List (Entry E Q (Buf E))))
  | [] => .ok (some [])
  | d :: l => do
    let e ← X.deEntry sc d
    match e with
    | none => .ok none
    | some e => do
      let es ← deEntries sc l
      .ok (es.map (e :: ·))

/-- derived `Deserialize for StatMap` (stat_map.rs:64): the field `inner`.  The entries are stored as found,
in the order found. -/
def deMap (sc : DeScope E) (d : Data) : Res (Option (StatMap E Q)) :=
  match deStruct X.fmt ["inner"] d with
  | some [.seq l] => X.deEntries sc l
  | _ => .ok none

end Serde
end BSQ
