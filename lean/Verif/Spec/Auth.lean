import Verif.Spec.Headers
import Verif.Model.Auth

/-! Specification of base64 text and of the authentication headers. -/

namespace HT.Spec

/-- The number written by digits in a base, most significant first. -/
def inBase (b : Nat) (ds : List Nat) : Nat := ds.foldl (fun a d => a * b + d) 0

/-- The standard base64 alphabet (RFC 4648, table 1). -/
def b64Alphabet : Str := s!!"ABCDEFGHIJKLMNOPQRSTUVWXYZabcdefghijklmnopqrstuvwxyz0123456789+/"

/-- `cs` is base64 text for the bytes `bs`: alphabet characters whose 6-bit values, as one number, are
the bytes followed by fewer than six zero bits, and then at most one `=` per two unused bits. -/
def Base64Text (cs : Str) (bs : List Byte) : Prop :=
  ∃ (vs : List Nat) (digits : Str) (k z : Nat),
    cs = digits ++ List.replicate k '=' ∧
    List.Forall₂ (fun v c => b64Alphabet[v]? = some c) vs digits ∧
    6 * vs.length = 8 * bs.length + z ∧ z < 6 ∧ 2 * k ≤ z ∧
    inBase 64 vs = inBase 256 (bs.map (·.val)) * 2 ^ z

/-- The schemes and the names they go by. -/
def schemeNames : List (Scheme × Str) :=
  [(.basic, s!!"Basic"), (.bearer, s!!"Bearer"), (.digest, s!!"Digest"), (.hoba, s!!"HOBA"),
   (.mutual, s!!"Mutual"), (.negotiate, s!!"Negotiate"), (.oauth, s!!"OAuth"),
   (.scramSha1, s!!"SCRAM-SHA-1"), (.scramSha256, s!!"SCRAM-SHA-256"), (.vapid, s!!"vapid")]

/-- The text names the scheme, in any letter case. -/
def Names (t : Str) (s : Scheme) : Prop := ∃ e ∈ schemeNames, e.1 = s ∧ sameName e.2 t

/-- The value of an `Authorization` header. -/
def AuthText (v : Str) (a : Authorization) : Prop := ∃ t, v = t ++ ' ' :: a.credentials ∧ Names t a.scheme

/-- The value of a `WWW-Authenticate` header: scheme, whitespace, a quoted realm, and anything after. -/
def ChallengeText (v : Str) (a : WwwAuthenticate) : Prop :=
  ∃ t ws rest, v = t ++ ' ' :: (ws ++ s!!"realm=\"" ++ a.realm ++ '"' :: rest) ∧ Names t a.scheme ∧
    (∀ c ∈ ws, isWs c = true) ∧ '"' ∉ a.realm

end HT.Spec
