import Verif.Model.Headers
import Verif.Model.Security

/-! What may stand in a header field value (RFC 7230 section 3.2): no control character except tab, so no
line end that would start a new field. -/

namespace HT.Spec

/-- A character of a field value: tab, or anything that is no ASCII control character. -/
def FieldChar (c : Char) : Prop := c = '\t' ∨ (32 ≤ c.toNat ∧ c.toNat ≠ 127)

instance (c : Char) : Decidable (FieldChar c) := inferInstanceAs (Decidable (_ ∨ _))

/-- A text that stays within one header field. -/
def FieldText (s : Str) : Prop := ∀ c ∈ s, FieldChar c

instance (s : Str) : Decidable (FieldText s) := inferInstanceAs (Decidable (∀ c ∈ s, FieldChar c))

/-- Every value stored is a field text. -/
def CleanHeaders (h : Headers) : Prop := ∀ n vs, (n, vs) ∈ h → ∀ v ∈ vs, FieldText v

/-- The values a call passes. -/
def passed : HOp → List Str
  | .insert _ a | .append _ a =>
    match a with
    | .str s => [s]
    | .value v => [v]
    | .slice vs => vs
    | .values vs => vs
  | .remove _ => []
  | .extend _ vs => vs
  | .setAt _ _ v => [v]
  | .drain _ _ => []

/-- The texts a building call brings. -/
def cspTexts : CspOp → List Str
  | .add _ s => [s]
  | .reportTo es => es.filterMap id
  | _ => []

end HT.Spec
