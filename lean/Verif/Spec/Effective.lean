import Verif.Spec.Message

/-! Specification of which element of a Forwarded header decides the effective host and address. -/

namespace HT.Spec

/-- A pair `k=v` with the key `part`, whatever its case, and no further equals sign. -/
def PairOf (part s v : Str) : Prop := ∃ k, s = k ++ '=' :: v ∧ '=' ∉ k ∧ '=' ∉ v ∧ sameName k part = true

/-- Between semicolons the text has a pair with the key `part`, and `v` is the value of the first. -/
def Elem (part s v : Str) : Prop :=
  ∃ before x after, s = join s!!";" (before ++ x :: after) ∧ (∀ y ∈ before ++ x :: after, ';' ∉ y) ∧
    PairOf part x v ∧ ∀ y ∈ before, ∀ w, ¬ PairOf part y w

end HT.Spec
