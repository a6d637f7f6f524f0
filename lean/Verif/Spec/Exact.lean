import Verif.Spec.Headers

/-! What a caller of an iterator may rely on, and which calls leave a header without values. -/

namespace HT.Spec

/-- The iterator after so many calls of `next`. -/
def afterTaking : Nat → Values → Values
  | 0, it => it
  | k + 1, it => afterTaking k it.next.2

/-- The number of values still to come is within the announced bounds. -/
def HintRight (it : Values) : Prop :=
  it.sizeHint.1 ≤ it.collect.length ∧ ∀ u, it.sizeHint.2 = some u → it.collect.length ≤ u

/-- The call leaves a header `n`, with these values before, without values: an empty list is inserted, or appended where
there was no header, or the values are moved away. -/
def Empties (n : Str) (before : Option (List Str)) : HOp → Prop
  | .insert k a => sameName k n = true ∧ writeValues a = some []
  | .append k a => sameName k n = true ∧ writeValues a = some [] ∧ before = none
  | .drain k _ => sameName k n = true ∧ before ≠ none
  | _ => False

/-- The call removes the header `n`, or stores a value under it if it is there. -/
def Fills (n : Str) : HOp → Prop
  | .insert k a => sameName k n = true ∧ ∃ v vs, writeValues a = some (v :: vs)
  | .append k a => sameName k n = true ∧ ∃ v vs, writeValues a = some (v :: vs)
  | .remove k => sameName k n = true
  | .extend k vs => sameName k n = true ∧ vs ≠ []
  | _ => False

end HT.Spec
