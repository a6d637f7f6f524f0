import Verif.Core.Str

/-! What a decimal numeral is, independently of the parser. -/

namespace HT.Spec

/-- Value of a list of decimal digits. -/
def decValue (ds : Str) : Nat := ds.foldl (fun a c => a * 10 + (c.toNat - 48)) 0

/-- `s` is a non-empty string of decimal digits, possibly after one `+`, with value `n`. -/
def Numeral (s : Str) (n : Nat) : Prop :=
  ∃ ds : Str, ds ≠ [] ∧ (s = ds ∨ s = '+' :: ds) ∧ (∀ c ∈ ds, '0' ≤ c ∧ c ≤ '9') ∧ n = decValue ds

end HT.Spec
