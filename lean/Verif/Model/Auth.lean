import Verif.Core.Base64
import Verif.Model.Simple

/-!
Model of `src/auth/authentication_scheme.rs`, `src/auth/authorization.rs`,
`src/auth/basic_auth.rs` and `src/auth/www_authenticate.rs`.
-/

namespace HT

/-- `AuthenticationScheme`, src/auth/authentication_scheme.rs:7-30. -/
inductive Scheme where
  | basic | bearer | digest | hoba | mutual | negotiate | oauth | scramSha1 | scramSha256 | vapid
  deriving DecidableEq, Repr

namespace Scheme

/-- `Display`, src/auth/authentication_scheme.rs:32-47. -/
def toStr : Scheme → Str
  | .basic => s!!"Basic"
  | .bearer => s!!"Bearer"
  | .digest => s!!"Digest"
  | .hoba => s!!"HOBA"
  | .mutual => s!!"Mutual"
  | .negotiate => s!!"Negotiate"
  | .oauth => s!!"OAuth"
  | .scramSha1 => s!!"SCRAM-SHA-1"
  | .scramSha256 => s!!"SCRAM-SHA-256"
  | .vapid => s!!"vapid"

/-- `FromStr`, src/auth/authentication_scheme.rs:49-71. `to_lowercase` is Unicode aware; the characters
it maps to ASCII besides the capital letters are the Kelvin sign (to `k`, which no scheme contains)
only, so lowering the ASCII letters decides the same matches. -/
def fromStr (s : Str) : Res Scheme :=
  let s := lower s
  if s = s!!"basic" then .ok .basic
  else if s = s!!"bearer" then .ok .bearer
  else if s = s!!"digest" then .ok .digest
  else if s = s!!"hoba" then .ok .hoba
  else if s = s!!"mutual" then .ok .mutual
  else if s = s!!"negotiate" then .ok .negotiate
  else if s = s!!"oauth" then .ok .oauth
  else if s = s!!"scram-sha-1" then .ok .scramSha1
  else if s = s!!"scram-sha-256" then .ok .scramSha256
  else if s = s!!"vapid" then .ok .vapid
  else .err 400

end Scheme

/-- `Authorization`, src/auth/authorization.rs:33-37. -/
structure Authorization where
  scheme : Scheme
  credentials : Str
  deriving DecidableEq, Repr

namespace Authorization

/-- `AUTHORIZATION`, src/headers/constants.rs:79. -/
def NAME : HeaderName := s!!"authorization"

/-- The parsing of the last value in `from_headers`, src/auth/authorization.rs:59-72. `splitn(2, ' ')`
always yields a first piece. -/
def parse (v : HeaderValue) : Res Authorization :=
  match splitn2 ' ' v with
  | [scheme, credentials] => (Scheme.fromStr scheme).bind fun s => .ok ⟨s, credentials⟩
  | _ => .err 400

/-- `from_headers`, src/auth/authorization.rs:49-72. -/
def fromHeaders (h : Headers) : Res (Option Authorization) := readLast h NAME parse

/-- `header_value`, src/auth/authorization.rs:100-105: not checked to be ASCII. -/
def headerValue (a : Authorization) : HeaderValue := a.scheme.toStr ++ s!!" " ++ a.credentials

end Authorization

/-- `BasicAuth`, src/auth/basic_auth.rs:38-41. -/
structure BasicAuth where
  username : Str
  password : Str
  deriving DecidableEq, Repr

namespace BasicAuth

/-- `from_credentials`, src/auth/basic_auth.rs:73-88. -/
def fromCredentials (credentials : Str) : Res BasicAuth :=
  ((Res.ofOption 500 (b64Decode credentials)).status 400).bind fun bytes =>
  ((Res.ofOption 500 (utf8Decode bytes)).status 400).bind fun creds =>
    match splitn2 ':' creds with
    | [username, password] => .ok ⟨username, password⟩
    | _ => .err 400

/-- `from_headers`, src/auth/basic_auth.rs:56-70. -/
def fromHeaders (h : Headers) : Res (Option BasicAuth) :=
  (Authorization.fromHeaders h).bind fun
    | none => .ok none
    | some auth =>
      if auth.scheme = .basic then (fromCredentials auth.credentials).map some else .err 400

/-- `header_value`, src/auth/basic_auth.rs:106-111. -/
def headerValue (b : BasicAuth) : HeaderValue :=
  Authorization.headerValue ⟨.basic, b64Encode (utf8Encode (b.username ++ s!!":" ++ b.password))⟩

end BasicAuth

/-- `WwwAuthenticate`, src/auth/www_authenticate.rs:39-43. -/
structure WwwAuthenticate where
  scheme : Scheme
  realm : Str
  deriving DecidableEq, Repr

namespace WwwAuthenticate

/-- `WWW_AUTHENTICATE`, src/headers/constants.rs:188. -/
def NAME : HeaderName := s!!"www-authenticate"

/-- `take_while` with its flag, src/auth/www_authenticate.rs:77-88: the characters before the first
quote, `none` when there is no quote. -/
def untilQuote : Str → Option Str
  | [] => none
  | c :: cs => if c = '"' then some [] else (untilQuote cs).map (c :: ·)

/-- The parsing of the last value in `from_headers`, src/auth/www_authenticate.rs:62-93. -/
def parse (v : HeaderValue) : Res WwwAuthenticate :=
  match splitn2 ' ' v with
  | [scheme, realm] =>
    (Scheme.fromStr scheme).bind fun s =>
      match stripPrefix s!!"realm=\"" (trimStart realm) with
      | none => .err 400
      | some r =>
        match untilQuote r with
        | some realm => .ok ⟨s, realm⟩
        | none => .err 400
  | _ => .err 400

/-- `from_headers`, src/auth/www_authenticate.rs:52-94. -/
def fromHeaders (h : Headers) : Res (Option WwwAuthenticate) := readLast h NAME parse

/-- `header_value`, src/auth/www_authenticate.rs:122-127: not checked to be ASCII. -/
def headerValue (a : WwwAuthenticate) : HeaderValue :=
  a.scheme.toStr ++ s!!" realm=\"" ++ a.realm ++ s!!"\", charset=\"UTF-8\""

end WwwAuthenticate
end HT
