import Verif.Spec.Json

/-! Report groups from JSON (src/security/csp.rs, feature `serde`). There is no other way to make one: the fields are private.
What the derives expand to is modelled over the values that the text is read as; that reading is `serde_json`'s and taken as
RFC 8259 has it. Errors are `none`. -/

namespace HT
open Spec

/-- `Option<String>`. -/
def jsonOptStr : Json → Option (Option Str)
  | .null => some none
  | .str s => some (some s)
  | _ => none

/-- `i32`. -/
def jsonI32 : Json → Option Int
  | .int n => if -2147483648 ≤ n ∧ n ≤ 2147483647 then some n else none
  | _ => none

/-- `Option<bool>`. -/
def jsonOptBool : Json → Option (Option Bool)
  | .null => some none
  | .bool b => some (some b)
  | _ => none

/-- `String`. -/
def jsonString : Json → Option Str
  | .str s => some s
  | _ => none

/-- The loop over the members in the derived `Deserialize` of `ReportToEndpoint`, src/security/csp.rs:95-99. -/
def endpointLoop (url : Option Str) : List (Str × Json) → Option Str
  | [] => url
  | (k, v) :: l =>
    if k = s!!"url" then
      match url with
      | some _ => none
      | none => (jsonString v).bind fun u => endpointLoop (some u) l
    else endpointLoop url l

/-- The derived `Deserialize` of `ReportToEndpoint`, src/security/csp.rs:95-99: an object, or an array of all fields. -/
def jsonEndpoint : Json → Option Str
  | .obj l => endpointLoop none l
  | .arr [v] => jsonString v
  | _ => none

/-- `Vec<ReportToEndpoint>`. -/
def jsonEndpoints : Json → Option (List Str)
  | .arr l => l.mapM jsonEndpoint
  | _ => none

/-- The loop over the members in the derived `Deserialize` of `ReportTo`, src/security/csp.rs:80-90: unknown ones are skipped,
a second one of the same name fails; missing options are `None`, other missing fields fail. -/
def ReportTo.loop (g : Option (Option Str)) (m : Option Int) (e : Option (List Str)) (i : Option (Option Bool)) :
    List (Str × Json) → Option ReportTo
  | [] =>
    match m, e with
    | some m, some e => some ⟨g.getD none, m, e, i.getD none⟩
    | _, _ => none
  | (k, v) :: l =>
    if k = s!!"group" then
      match g with
      | some _ => none
      | none => (jsonOptStr v).bind fun x => loop (some x) m e i l
    else if k = s!!"max_age" then
      match m with
      | some _ => none
      | none => (jsonI32 v).bind fun x => loop g (some x) e i l
    else if k = s!!"endpoints" then
      match e with
      | some _ => none
      | none => (jsonEndpoints v).bind fun x => loop g m (some x) i l
    else if k = s!!"include_subdomains" then
      match i with
      | some _ => none
      | none => (jsonOptBool v).bind fun x => loop g m e (some x) l
    else loop g m e i l

/-- The derived `Deserialize` of `ReportTo`, src/security/csp.rs:80-90: an object, or an array of all fields. -/
def ReportTo.ofJson : Json → Option ReportTo
  | .obj l => ReportTo.loop none none none none l
  | .arr [a, b, c, d] =>
    (jsonOptStr a).bind fun g => (jsonI32 b).bind fun m => (jsonEndpoints c).bind fun e => (jsonOptBool d).map fun i => ⟨g, m, e, i⟩
  | _ => none

end HT
