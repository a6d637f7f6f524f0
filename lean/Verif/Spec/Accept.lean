import Verif.Spec.Content
import Verif.Spec.Mime

/-! What an Accept header can carry. -/

namespace HT.Spec

/-- A media type that can stand in an Accept header beside a weight. -/
structure AcceptType (m : Mime) : Prop where
  wf : MimeWF m
  ascii : Ascii m.display
  comma : ',' ∉ m.display
  weight : ∀ e ∈ m.params, e.1 ≠ s!!"q"

/-- `p'` is `p` with its weight rounded to three decimals; no weight is weight 1. -/
def RoundedMedia (p p' : Proposal Mime) : Prop :=
  p'.item = p.item ∧
    (p.weight = none ∧ p'.weight = some (.fin false (2 ^ 149)) ∨
      ∃ m k, p.weight = some (.fin false m) ∧ k ≤ 1000 ∧ p'.weight = some (thousandths k) ∧
        2 * gap (m * 1000) (2 ^ 149 * k) ≤ 2 ^ 149)

end HT.Spec
