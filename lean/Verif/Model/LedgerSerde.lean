import Verif.Model.Ledger
import Verif.Model.Serde
/-!
# Who owns the values while a `StatMap` is being loaded  (src/stat_map.rs:390-455)

The steps of `Verif.Model.Serde`, recording what is created and dropped.  What a `Deserialize` impl does before it
returns a value or an error is its own business.
-/
namespace BSQ
variable {E : Env} {Q : Type} (X : Serde E Q)

namespace Serde

/-- the vtable entry `deserialize` (stat.rs:52-56, 87) -/
def ownValue (h : Heap E.U) (s : StatInst E) (d : Data) : Heap E.U × Res (Option Cell) :=
  if X.supported s.vt then
    match validate (E.layout s.ty) with
    | .error e => (h, .error e)
    | .ok _ =>
      match X.de s.ty d with
      | none => (h, .ok none)
      | some _ =>
        match h.alloc s.ty with
        | (h', some b) => (h', .ok (some b))
        | (h', none) => (h', .error .panic)
  else (h, .error .panic)

/-- the third element and the end of the sequence (stat_map.rs:437-444).  The tuple is returned to the format, which
may still report an error about what follows; the tuple is then dropped, and a `Buffer` has no destructor. -/
def ownThird (h : Heap E.U) (q : Qualifier Q) (s : StatInst E) :
    List Data → Heap E.U × Res (Option (Entry E Q Cell))
  | [] => (h, .ok none)
  | d :: rest =>
    match X.ownValue h s d with
    | (h', .error e) => (h', .error e)
    | (h', .ok none) => (h', .ok none)
    | (h', .ok (some b)) => (h', if X.fmt.strictEnd && !rest.isEmpty then .ok none else .ok (some ⟨s, q, b⟩))

/-- `Deserialize for StatMapEntry` (stat_map.rs:390-400, 427-445); the qualifier and the stat own nothing that
matters here -/
def ownEntry (sc : DeScope E) (h : Heap E.U) (d : Data) : Heap E.U × Res (Option (Entry E Q Cell)) :=
  match d with
  | .seq (d :: d' :: rest) =>
    match X.deQ d with
    | none => (h, .ok none)
    | some q =>
      match deStat sc d' with
      | .error e => (h, .error e)
      | .ok none => (h, .ok none)
      | .ok (some s) => X.ownThird h q s rest
  | _ => (h, .ok none)

/-- `Vec<StatMapEntry>`: `acc` are the entries so far; on an error or a panic the vector is dropped with them -/
def ownEntries (sc : DeScope E) : Heap E.U → LMap E Q → List Data → Heap E.U × Option (LMap E Q)
  | h, acc, [] => (h, some acc)
  | h, acc, d :: l =>
    match X.ownEntry sc h d with
    | (h', .ok (some e)) => ownEntries sc h' (acc ++ [e]) l
    | (h', _) => (LMap.dropAll h' acc, none)

/-- derived `Deserialize for StatMap` (stat_map.rs:64).  Simplification: data of the wrong outer shape is rejected
before the entries are read; a streaming format may read them first and then drop the vector. -/
def ownMap (sc : DeScope E) (h : Heap E.U) (d : Data) : Heap E.U × Option (LMap E Q) :=
  match deStruct X.fmt ["inner"] d with
  | some [.seq l] => X.ownEntries sc h [] l
  | _ => (h, none)

/-- several maps are loaded one after the other -/
def ownAll (sc : DeScope E) : LState E Q → List Data → LState E Q
  | st, [] => st
  | st, d :: l => ownAll sc (st.push (X.ownMap sc st.heap d)) l

end Serde
end BSQ
