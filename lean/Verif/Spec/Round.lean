/-! What rounding to binary floating point means, independently of how it is computed. -/

namespace HT.Spec

/-- `n` units can be written with at most `p` significant bits. -/
def Representable (p n : Nat) : Prop := ∃ m e : Nat, m < 2 ^ p ∧ n = m * 2 ^ e

/-- Distance between two naturals. -/
def gap (a b : Nat) : Nat := (a - b) + (b - a)

end HT.Spec
