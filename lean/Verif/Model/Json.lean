import Verif.Model.SerdeTypes
/-!
# What JSON keeps of the data  (`serde_json`, used by tests/serde.rs:128-176)

JSON has no infinities and no NaN: `serde_json` writes them as `null`, without an error, both as text and as a
`serde_json::Value`.  Everything else is kept as far as the types of this crate look at it.  Not considered: integers
of more than 64 bits, which a `Value` cannot hold, and that numbers read from text may be a unit in the last place off
unless the feature `float_roundtrip` is on.
-/
namespace BSQ

mutual
/-- the datum that is read from JSON after a datum was written (`null` is read as a unit) -/
def Data.json : Data → Data
  | .unit => .unit
  | .bool b => .bool b
  | .int i => .int i
  | .float (.fin q) => .float (.fin q)
  | .float .nan => .unit
  | .float .pinf => .unit
  | .float .ninf => .unit
  | .str s => .str s
  | .seq l => .seq (Data.jsonAll l)
  | .fields l => .fields (Data.jsonFields l)
  | .unitVariant t => .unitVariant t
  | .newtypeVariant t d => .newtypeVariant t (Data.json d)
  | .other l => .other l
/-- elements of a sequence -/
def Data.jsonAll : List Data → List Data
  | [] => []
  | d :: l => Data.json d :: Data.jsonAll l
/-- members of an object -/
def Data.jsonFields : List (String × Data) → List (String × Data)
  | [] => []
  | (n, d) :: l => (n, Data.json d) :: Data.jsonFields l
end

end BSQ
