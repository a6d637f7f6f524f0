import Verif.Model.Simple
import Verif.Spec.Headers

/-! Which field of the message a typed header is about. -/

namespace HT.Spec

/-- A typed header with the given name constant and reading function is about the field `field`: it is absent when
the field is, what is read depends on that field only, and writing it sets that field and no other. -/
def IsField {α : Type} (field : Str) (name : HeaderName) (read : Headers → Res (Option α)) : Prop :=
  (∀ h : Headers, h.getStr field = .ok none → read h = .ok none) ∧
  (∀ h h' : Headers, h.getStr field = h'.getStr field → read h = read h') ∧
  (∀ (h h' : Headers) (v : HeaderValue), applyHeader h name (.ok v) = .ok h' →
    h'.getStr field = .ok (some [v]) ∧
      ∀ other, Ascii other → sameName other field = false → h'.getStr other = h.getStr other)

/-- Reading never panics and fails only with one of the given statuses. -/
def FailsWithin {α : Type} (ss : List Nat) (r : Res α) : Prop := (∃ x, r = .ok x) ∨ ∃ s ∈ ss, r = .err s

end HT.Spec
