import Verif.Model.Simple

/-! What it means for a typed header to round-trip through a header collection. -/

namespace HT.Spec

/-- Writing `value` under `name` into any collection succeeds, stores exactly one ASCII value there
and touches nothing else, and reading the collection back gives `x`. -/
def RoundTrips {α : Type} (name : HeaderName) (value : Res HeaderValue)
    (read : Headers → Res (Option α)) (x : α) : Prop :=
  ∀ h : Headers, ∃ (h' : Headers) (v : HeaderValue),
    applyHeader h name value = .ok h' ∧
    (∀ c ∈ v, c.toNat < 128) ∧
    (∀ n, h'.get n = if n = name then some [v] else h.get n) ∧
    read h' = .ok (some x)

/-- Reading never panics on a header that has at least one value, and fails only with status `s`. -/
def ReadsCleanly {α : Type} (s : Nat) (name : HeaderName) (read : Headers → Res (Option α)) : Prop :=
  ∀ h : Headers, h.get name ≠ some [] → (∃ x, read h = .ok x) ∨ read h = .err s

/-- Reading looks at the last value of the header only. -/
def ReadsLast {α : Type} (name : HeaderName) (read : Headers → Res (Option α)) (f : HeaderValue → Res α) : Prop :=
  ∀ h : Headers, (h.get name = none → read h = .ok none) ∧
    ∀ (vs : List HeaderValue) (v : HeaderValue), h.get name = some (vs ++ [v]) → read h = (f v).map some

end HT.Spec
