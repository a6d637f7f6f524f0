import Verif.Model.Message
import Verif.Spec.Headers
import Verif.Spec.Mime

/-! Specification of the content type of messages and of host and remote address. -/

namespace HT.Spec

variable {β : Type}

/-- The body an operation puts into the message. -/
def stored (I : BodyI β) : MOp β → β
  | .set b | .replace b | .swap b => b
  | .take => I.empty

/-- `Forwarded` in the plain form: `key=value` pairs joined by semicolons. -/
def plainForwarded (ps : List (Str × Str)) : Str := join s!!";" (ps.map fun e => e.1 ++ s!!"=" ++ e.2)

/-- Keys and values without separators. -/
def PlainPairs (ps : List (Str × Str)) : Prop :=
  ps ≠ [] ∧ ∀ e ∈ ps, (∀ c ∈ e.1, c ≠ ';' ∧ c ≠ '=') ∧ (∀ c ∈ e.2, c ≠ ';' ∧ c ≠ '=') ∧ Ascii e.1

/-- The header is absent, or its first value is `s`. -/
def FirstIs (h : Headers) (name : HeaderName) : Option Str → Prop
  | none => h.get name = none
  | some s => ∃ rest, h.get name = some (s :: rest)

/-- Up to the first comma. -/
def beforeComma (s : Str) : Str := s.takeWhile (· ≠ ',')

end HT.Spec
