import Verif.Model.StatMap
import Verif.Model.Plugin
/-!
# `Debug` of maps, registries, caches and pairs

What is modelled is which name is printed and which value is handed to the value type's `Debug` impl; the text
is not.  `StatDeserializers`, `GlobalStatRelations` and `StatInst` print no stored value.
-/
namespace BSQ
variable {E : Env} {Q Ent : Type}

/-- a value together with its type -/
abbrev Shown (E : Env) := (u : E.U) × E.El u

/-- `StatInst::name` and the vtable entry `as_debug` (stat.rs:50, 81-85): the buffer is read at `T::Value` -/
def debugOne (s : StatInst E) (b : Buf E) : Res (String × Shown E) := do
  let n ← s.name
  let v ← b.read s.ty
  .ok (n, ⟨s.ty, v⟩)

/-- `Debug for StatValuePair` (stat.rs:286-295) -/
def Pair.debug (p : Pair E) : Res (String × Shown E) := debugOne p.stat p.value

/-- the loop common to the three maps -/
def debugAll {K : Type} (stat : K → StatInst E) : List (K × Buf E) → Res (List (K × String × Shown E))
  | [] => .ok []
  | (k, b) :: l => do
    let x ← debugOne (stat k) b
    let xs ← debugAll stat l
    .ok ((k, x) :: xs)

/-- `Debug for StatMap` (stat_map.rs:72-89): qualifier, name and value of each entry in order -/
def StatMap.debug (m : StatMap E Q) : Res (List (Qualifier Q × String × Shown E)) := do
  let l ← debugAll (fun k : Qualifier Q × StatInst E => k.2) (m.map (fun e => ((e.qual, e.stat), e.buf)))
  .ok (l.map (fun x => (x.1.1, x.2)))

/-- `Debug for GlobalStatDefaults` (plugin.rs:128-138) -/
def Defaults.debug (d : Defaults E) : Res (List (String × Shown E)) := do
  let l ← debugAll id d
  .ok (l.map (·.2))

/-- `Debug for StatCache` (cache.rs:29-41) -/
def Cache.debug (c : Cache E Q Ent) : Res (List ((Ent × QualifierQuery Q) × String × Shown E)) := do
  let l ← debugAll CacheKey.stat c
  .ok (l.map (fun x => ((x.1.entity, x.1.query), x.2)))

end BSQ
