import Verif.Spec.Written
import Verif.Spec.Chain

/-! What other implementations read from a Forwarded header (RFC 7239, section 4). -/

namespace HT.Spec

/-- The value is in the grammar of the standard and amounts to this. -/
def ChainRead (v : Str) (f : Forwarded) : Prop := ∃ es, LegalChain es ∧ chainText es = v ∧ ChainMeans es f

/-- The `for` values can be quoted, the others are tokens. -/
def QuotableChain (f : Forwarded) : Prop :=
  (∀ v ∈ f.forwardedFor, v ≠ [] ∧ ∀ c ∈ v, QuotedChar c) ∧
  (∀ v, f.by' = some v → Token v) ∧ (∀ v, f.host = some v → Token v) ∧ (∀ v, f.proto = some v → Token v)

end HT.Spec
