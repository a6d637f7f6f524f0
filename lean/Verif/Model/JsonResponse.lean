import Verif.Model.JsonValue
import Verif.Model.Whole
import Verif.Model.Body

/-! A JSON value given where a body is expected. -/

namespace HT
open Spec

/-- `From<serde_json::Value> for Body`, src/body.rs:549-554: `from_json` and an `unwrap`, which panics on an error. -/
def Body.ofValue (j : Json) : Res (Body (List Byte)) :=
  match Body.fromJson (some (utf8Encode (jsonText j))) with
  | .ok b => .ok b
  | .err _ => .panic
  | .panic => .panic

/-- `From<T: Into<Body>> for Response`, src/response.rs:681-691, with a JSON value. -/
def RespVal.ofValue {κ : Type} [DecidableEq κ] {T : κ → Type} (j : Json) : Res (RespVal (Body (List Byte)) T) :=
  (Body.ofValue j).bind fun b => RespVal.ofBody (Body.iface []) b

end HT
