import Verif.Spec.Clock

/-!
What the documentation of `PartialEq` and `PartialOrd` (std) asks of `==` and `partial_cmp`, and what users take `Ord` of
times to mean.
-/

namespace HT.Spec

/-- `==` is symmetric and transitive. -/
structure EqLaws {α : Type} (eq : α → α → Bool) : Prop where
  symm : ∀ a b, eq a b = true → eq b a = true
  trans : ∀ a b c, eq a b = true → eq b c = true → eq a c = true

/-- `<` and `>` are dual and transitive. -/
structure OrdLaws {α : Type} (cmp : α → α → Option Ordering) : Prop where
  dual : ∀ a b, cmp a b = some .lt ↔ cmp b a = some .gt
  trans : ∀ a b c, cmp a b = some .lt → cmp b c = some .lt → cmp a c = some .lt

/-- `==` says the same as `partial_cmp`. -/
def Agree {α : Type} (eq : α → α → Bool) (cmp : α → α → Option Ordering) : Prop :=
  ∀ a b, eq a b = true ↔ cmp a b = some .eq

end HT.Spec
