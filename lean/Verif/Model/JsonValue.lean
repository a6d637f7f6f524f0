import Verif.Spec.Json
import Verif.Lemmas.Utf8

/-! Any JSON in a body (src/body.rs, feature `serde`), for the type `serde_json::Value`. The text is read as RFC 8259 has it, as
far as `Spec.parseJson` goes: what `serde_json` would keep as floats is left out, which is numbers with a fraction or an exponent,
the negative zero, and integers outside of `i64` and `u64`. -/

namespace HT
open Spec

mutual
/-- `serde_json::to_vec` of a value, which `Body::from_json`, src/body.rs:251-260, calls; as text. -/
def jsonText : Json → Str
  | .null => s!!"null"
  | .bool b => if b then s!!"true" else s!!"false"
  | .int n => jsonInt n
  | .str s => jsonStr s
  | .arr l => jsonArr (jsonTexts l)
  | .obj l => jsonObj (jsonFields l)
/-- The elements of an array. -/
def jsonTexts : List Json → List Str
  | [] => []
  | v :: l => jsonText v :: jsonTexts l
/-- The members of an object. -/
def jsonFields : List (Str × Json) → List (Str × Str)
  | [] => []
  | p :: l => jsonField p :: jsonFields l
/-- A member of an object. -/
def jsonField : Str × Json → Str × Str
  | (k, v) => (k, jsonText v)
end

mutual
/-- How often the reader of `serde_json` enters an array or object within others. -/
def jsonDepth : Json → Nat
  | .arr l => jsonDepths l + 1
  | .obj l => jsonDepthsM l + 1
  | _ => 0
/-- The most of them in an array. -/
def jsonDepths : List Json → Nat
  | [] => 0
  | v :: l => max (jsonDepth v) (jsonDepths l)
/-- The most of them in an object. -/
def jsonDepthsM : List (Str × Json) → Nat
  | [] => 0
  | p :: l => max (jsonDepthP p) (jsonDepthsM l)
/-- Those in a member. -/
def jsonDepthP : Str × Json → Nat
  | (_, v) => jsonDepth v
end

/-- `Map::insert` of `serde_json`, which is `BTreeMap::insert`: the members are sorted by name, and a later one replaces an
earlier one. Strings are ordered by their bytes, which is the order of their characters. -/
def jsonInsert (k : Str) (v : Json) : List (Str × Json) → List (Str × Json)
  | [] => [(k, v)]
  | (k', v') :: l =>
    if k = k' then (k, v) :: l else if k < k' then (k, v) :: (k', v') :: l else (k', v') :: jsonInsert k v l

mutual
/-- The `Deserialize` of `serde_json::Value`: the members of objects are inserted one by one, and integers are in `i64` or
`u64`. -/
def jsonKeep : Json → Option Json
  | .int n => if -2 ^ 63 ≤ n ∧ n < 2 ^ 64 then some (.int n) else none
  | .arr l => (jsonKeepL l).map .arr
  | .obj l => (jsonKeepM [] l).map .obj
  | v => some v
/-- The elements of an array. -/
def jsonKeepL : List Json → Option (List Json)
  | [] => some []
  | v :: l => (jsonKeep v).bind fun v => (jsonKeepL l).map (v :: ·)
/-- The members of an object, after those in the map. -/
def jsonKeepM (m : List (Str × Json)) : List (Str × Json) → Option (List (Str × Json))
  | [] => some m
  | p :: l => (jsonKeepP p).bind fun q => jsonKeepM (jsonInsert q.1 q.2 m) l
/-- A member of an object. -/
def jsonKeepP : Str × Json → Option (Str × Json)
  | (k, v) => (jsonKeep v).map fun v => (k, v)
end

/-- `serde_json::from_slice` for a value, which `Body::into_json`, src/body.rs:283-287, calls: UTF-8, JSON, and never as deep
as 128 (`remaining_depth` starts there and must not reach zero). -/
def jsonFromSlice (d : List Byte) : Option Json :=
  (utf8Decode d).bind fun t => (parseJson t).bind fun j => if jsonDepth j < 128 then jsonKeep j else none

end HT
