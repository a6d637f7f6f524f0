import Verif.Model.Headers

/-! Headers sent more than once: C95. -/

namespace HT.Spec

/-- What is read depends on the last value only: whatever came before it, and whatever other headers there are. -/
def LastDecides {α : Type} (name : HeaderName) (read : Headers → Res α) : Prop :=
  ∀ (h h' : Headers) (vs vs' : List HeaderValue) (v : HeaderValue),
    h.get name = some (vs ++ [v]) → h'.get name = some (vs' ++ [v]) → read h = read h'

/-- Sending the same value again changes nothing. -/
def RepeatsAlike {α : Type} (name : HeaderName) (read : Headers → Res α) : Prop :=
  ∀ (h h' : Headers) (n : Nat) (v : HeaderValue),
    h.get name = some (List.replicate (n + 1) v) → h'.get name = some [v] → read h = read h'

end HT.Spec
