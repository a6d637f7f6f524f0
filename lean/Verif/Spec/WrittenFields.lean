import Verif.Spec.WrittenPrefs
import Verif.Spec.Fields
import Verif.Spec.StdDate

/-!
What other implementations read from headers with one value: dates (RFC 7231 section 7.1.1.1), `Retry-After` (RFC 7231
section 7.1.3), credentials (RFC 7235 section 2.1) and those of the scheme `Basic` (RFC 7617 section 2).
-/

namespace HT.Spec

/-- Read at the time `now`, the value is a date in one of the three layouts, and denotes the instant `t`. -/
def DateAs (now : Fields) (v : Str) (t : Int) : Prop :=
  ∃ (f : Fields) (w : Nat) (l : DateLayout), f.Standard ∧ w < 7 ∧ v = f.written w l ∧ f.MeantAt now l ∧ t = f.moment

/-- `Retry-After = HTTP-date / delay-seconds`. -/
inductive RetryText (now : Fields) (v : Str) : Nat ⊕ Int → Prop where
  | delay {n} : DigitText v n → RetryText now v (.inl n)
  | date {t} : DateAs now v t → RetryText now v (.inr t)

/-- What may follow the scheme and its spaces: `token68 / #auth-param`, and no white space before it. -/
def CredBody (c : Str) : Prop :=
  c ≠ [] ∧ c.head? ≠ some ' ' ∧ (Token68 c ∨ ∃ ps, AnyListed (fun t (p : Str × Str) => AuthParam t p.1 p.2) c ps)

/-- `credentials = auth-scheme 1*SP ( token68 / #auth-param )`: the scheme and what follows the spaces. -/
def CredentialsText (v : Str) (x : Scheme × Str) : Prop :=
  ∃ t k, Names t x.1 ∧ v = t ++ (' ' :: List.replicate k ' ' ++ x.2) ∧ CredBody x.2

/-- The credentials of the scheme `Basic`: user, who has no colon, and password. -/
def BasicText (v : Str) (x : Str × Str) : Prop :=
  ∃ c, CredentialsText v (.basic, c) ∧ Base64Text c (utf8Encode (x.1 ++ ':' :: x.2)) ∧ ':' ∉ x.1

end HT.Spec
