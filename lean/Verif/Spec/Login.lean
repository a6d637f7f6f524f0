import Verif.Spec.Typed
import Verif.Model.Auth

/-! A server asks for a login, the client answers for the realm that it read, and the server reads who it is. -/

namespace HT.Spec

/-- What a client has for each realm: a user and a password, or nothing. -/
abbrev Wallet := Str → Option (Str × Str)

/-- What the client reads of the challenge `a` in a response that had the headers `resp` before. -/
def challenged (a : WwwAuthenticate) (resp : Headers) : Res (Option WwwAuthenticate) :=
  (applyHeader resp s!!"www-authenticate" (.ok a.headerValue)).bind WwwAuthenticate.fromHeaders

/-- What the server reads when the client logs in as `u` with password `p`. -/
def told (u p : Str) (req : Headers) : Res (Option BasicAuth) :=
  (applyHeader req s!!"authorization" (.ok (BasicAuth.headerValue ⟨u, p⟩))).bind BasicAuth.fromHeaders

/-- What the server reads, if there is an answer: the client answers if it is asked for Basic and has something for the
realm. -/
def answered (w : Wallet) (req : Headers) : Option WwwAuthenticate → Res (Option (Str × Str))
  | some ⟨.basic, r⟩ =>
    match w r with
    | some (u, p) => (told u p req).map fun o => o.map fun b => (b.username, b.password)
    | none => .ok none
  | _ => .ok none

/-- The whole exchange: the server asks with `a`, and reads what the client answers. -/
def login (w : Wallet) (a : WwwAuthenticate) (resp req : Headers) : Res (Option (Str × Str)) :=
  (challenged a resp).bind (answered w req)

/-- The client has users for realms whose names have no colon. -/
def NoColons (w : Wallet) : Prop := ∀ r u p, w r = some (u, p) → ':' ∉ u

end HT.Spec
