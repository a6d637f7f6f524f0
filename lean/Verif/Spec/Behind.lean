import Verif.Spec.Forwarded
import Verif.Spec.Message

/-! A request on its way through proxies that use the typed `Forwarded` header. -/

namespace HT.Spec

/-- A proxy that was called from `a`: it reads what is known so far (nothing, if there is no such header), adds `a` and
writes that into the request. -/
def proxy (v6 : Str → Option Str) (h : Headers) (a : Str) : Res Headers :=
  (Forwarded.fromHeaders v6 h).bind fun o =>
    applyHeader h s!!"forwarded" (.ok ((o.getD {}).addFor a).headerValue)

/-- One proxy after the other; the addresses are those the proxies were called from, so the first one is the client. -/
def through (v6 : Str → Option Str) : List Str → Headers → Res Headers
  | [], h => .ok h
  | a :: as, h => (proxy v6 h a).bind (through v6 as)

/-- What is known so far can be written: addresses that survive, and tokens. -/
def Known (f : Forwarded) : Prop :=
  (∀ v ∈ f.forwardedFor, ForValue v) ∧ (∀ v ∈ f.by', Token v) ∧ (∀ v ∈ f.host, Token v) ∧ ∀ v ∈ f.proto, Token v

/-- The request says `f`: this is the first value of its `Forwarded` header. -/
def Says (h : Headers) (f : Forwarded) : Prop := FirstIs h s!!"forwarded" (some f.headerValue)

/-- The remote address when `Forwarded` is not there: the first entry of `X-Forwarded-For`, else the other end of the
connection. -/
def otherwise (xff peer : Option Str) : Option Str := (xff.map beforeComma).or peer

end HT.Spec
