import Verif.Model.Basic
/-!
# `FxHashMap`

A hash map is a list of keys and values in an unspecified order; no result below depends on that order.
Keys are compared with the key type's `==` (the `eq` argument).  Trusted: `hashbrown` with a hash that
agrees with `==` (proved for the crate's keys in C37) behaves like this.
-/
namespace BSQ

/-- `FxHashMap<K, B>` -/
abbrev HMap (K B : Type) := List (K × B)

namespace HMap
variable {K B : Type} (eq : K → K → Bool)

/-- `HashMap::get` -/
def get (m : HMap K B) (k : K) : Option B := (m.find? (fun x => eq x.1 k)).map (·.2)

/-- overwrite the value of a present key in place, `*map.get_mut(k).unwrap() = b` -/
def set (m : HMap K B) (k : K) (b : B) : HMap K B := m.map (fun x => if eq x.1 k then (x.1, b) else x)

/-- `HashMap::insert`, with the replaced value, which `insert` returns -/
def insert (m : HMap K B) (k : K) (b : B) : HMap K B × Option B :=
  match get eq m k with
  | some old => (set eq m k b, some old)
  | none => (m ++ [(k, b)], none)

end HMap
end BSQ
