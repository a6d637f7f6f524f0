import Verif.Model.Security

/-! The JSON text of report groups (src/security/csp.rs, feature `serde`). -/

namespace HT

/-- `ReportTo` and its `ReportToEndpoint`s, src/security/csp.rs:79-99: an endpoint is its `url`. -/
structure ReportTo where
  group : Option Str
  maxAge : Int
  endpoints : List Str
  includeSubdomains : Option Bool
  deriving DecidableEq, Repr

/-- How `serde_json` escapes a character of a string (its table `ESCAPE`). -/
def jsonChar (c : Char) : Str :=
  if c = '"' then s!!"\\\""
  else if c = '\\' then s!!"\\\\"
  else if c.toNat = 8 then s!!"\\b"
  else if c.toNat = 9 then s!!"\\t"
  else if c.toNat = 10 then s!!"\\n"
  else if c.toNat = 12 then s!!"\\f"
  else if c.toNat = 13 then s!!"\\r"
  else if c.toNat < 32 then s!!"\\u" ++ hexPad 4 c.toNat
  else [c]

/-- A string as `serde_json::to_string` writes it. -/
def jsonStr (s : Str) : Str := '"' :: (s.flatMap jsonChar ++ ['"'])

/-- An integer as `serde_json::to_string` writes it. -/
def jsonInt (n : Int) : Str := if n < 0 then '-' :: dec n.natAbs else dec n.natAbs

/-- A struct as `serde_json::to_string` writes it, from its fields and the texts of their values. -/
def jsonObj (fields : List (Str × Str)) : Str :=
  '{' :: (join s!!"," (fields.map fun f => jsonStr f.1 ++ ':' :: f.2) ++ ['}'])

/-- A vector as `serde_json::to_string` writes it. -/
def jsonArr (xs : List Str) : Str := '[' :: (join s!!"," xs ++ [']'])

/-- The derived `Serialize` of `ReportTo`, src/security/csp.rs:80-90, and `ReportToEndpoint`, src/security/csp.rs:95-99: the
fields in order, `None` left out. -/
def ReportTo.toJson (r : ReportTo) : Str :=
  jsonObj ((match r.group with | some g => [(s!!"group", jsonStr g)] | none => []) ++
    [(s!!"max_age", jsonInt r.maxAge),
     (s!!"endpoints", jsonArr (r.endpoints.map fun u => jsonObj [(s!!"url", jsonStr u)]))] ++
    (match r.includeSubdomains with
      | some b => [(s!!"include_subdomains", if b then s!!"true" else s!!"false")]
      | none => []))

/-- `report_to`, src/security/csp.rs:285-298, with the text of `serde_json`, which does not fail for these types. -/
def Csp.reportGroups (c : Csp) (rs : List ReportTo) : Csp := c.reportTo (rs.map fun r => some r.toJson)

end HT
