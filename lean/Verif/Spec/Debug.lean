import Verif.Core.Str

/-!
Specification vocabulary for C90.
-/

namespace HT.Spec

/-- No control character of ASCII occurs: no line break, no tab, no escape sequence for a terminal. -/
def OneLine (s : Str) : Prop := ∀ c ∈ s, ¬ (c.toNat < 32 ∨ c.toNat = 127)

instance (s : Str) : Decidable (OneLine s) := by unfold OneLine; infer_instance

end HT.Spec
