import Verif.Spec.JsonValue

/-! What a JSON value holds, seen along paths. -/

namespace HT.Spec

/-- A step into a value. -/
inductive JsonStep where
  | name (k : Str)
  | index (i : Nat)

/-- What is found at the end of a path. -/
inductive JsonShape where
  | null
  | bool (b : Bool)
  | int (n : Int)
  | str (s : Str)
  | arr (length : Nat)
  | obj
  deriving DecidableEq

/-- The value itself. -/
def Json.shape : Json → JsonShape
  | .null => .null
  | .bool b => .bool b
  | .int n => .int n
  | .str s => .str s
  | .arr l => .arr l.length
  | .obj _ => .obj

/-- One step: of several members of the same name it goes to the last. -/
def Json.into : Json → JsonStep → Option Json
  | .arr l, .index i => l[i]?
  | .obj l, .name k => ((l.filter (·.1 = k)).getLast?).map (·.2)
  | _, _ => none

/-- What is found along a path, if there is something. -/
def Json.look (j : Json) : List JsonStep → Option JsonShape
  | [] => some j.shape
  | s :: p => (j.into s).bind fun j => j.look p

end HT.Spec
