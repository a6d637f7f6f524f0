import Verif.Spec.Auth
import Verif.Spec.Mime
import Verif.Spec.Float

/-!
Headers with one value by the standards: numbers (RFC 7230 section 3.3.2, RFC 7231 section 7.1.3, RFC 7234 section
1.2.1), expectations (RFC 7231 section 5.1.1), credentials and challenges (RFC 7235 section 2.1, RFC 7617).
-/

namespace HT.Spec

/-- `1*DIGIT`, and its value. -/
def DigitText (v : Str) (n : Nat) : Prop := v ≠ [] ∧ Digits v ∧ n = decValue v

/-- `token68`. -/
def Token68 (v : Str) : Prop :=
  ∃ a k, v = a ++ List.replicate k '=' ∧ a ≠ [] ∧ ∀ c ∈ a, c.isAlphanum = true ∨ c ∈ s!!"-._~+/"

/-- Credentials: a scheme, alone or with `1*SP` and a `token68`. -/
inductive CredText : Str → Scheme → Option Str → Prop where
  | alone {t s} : Names t s → CredText t s none
  | token {t s c} (k : Nat) : Names t s → Token68 c → CredText (t ++ (' ' :: List.replicate k ' ' ++ c)) s (some c)

/-- `auth-param = token BWS "=" BWS ( token / quoted-string )`, without the white space that is not to be sent: the
name, the value, and whether it was quoted. -/
def AuthParam (t n v : Str) : Prop := Token n ∧ ∃ raw, t = n ++ '=' :: raw ∧ ValueText raw v

/-- A challenge with parameters: `auth-scheme 1*SP auth-param *( OWS "," OWS auth-param )`. -/
def ChallengeParams (v : Str) (s : Scheme) (ps : List (Str × Str)) : Prop :=
  ∃ (t : Str) (k : Nat) (p : Str) (ts : List (Str × Str × Str)), Names t s ∧ v = t ++ (' ' :: List.replicate k ' ' ++ (p ++ ts.flatMap fun x : Str × Str × Str => x.1 ++ ',' :: (x.2.1 ++ x.2.2))) ∧
    List.Forall₂ (fun t q => AuthParam t q.1 q.2) (p :: ts.map (·.2.2)) ps ∧
    ∀ x ∈ ts, (∀ c ∈ x.1, c = ' ' ∨ c = '\t') ∧ ∀ c ∈ x.2.1, c = ' ' ∨ c = '\t'

/-- The realm of a challenge: its only parameter of that name, up to case. -/
def Realm (ps : List (Str × Str)) (r : Str) : Prop :=
  ∃ a n b, ps = a ++ (n, r) :: b ∧ sameName n s!!"realm" = true ∧ ∀ q ∈ a ++ b, sameName q.1 s!!"realm" = false

end HT.Spec
