import Verif.Spec.Secrets

/-! Specification of what stands in front of the values in a log. -/

namespace HT.Spec

/-- The text begins with the name of the type, and each value stands behind the name of its field. -/
def Announces (type : Str) (fields : List (Str × Str)) (t : Str) : Prop :=
  type ++ s!!" {" <+: t ∧ ∀ e ∈ fields, Labelled e.1 e.2 t

end HT.Spec
