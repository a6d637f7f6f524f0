import Verif.Spec.Headers
import Verif.Spec.Typed

/-! Passing a typed header on: reading it from one message and writing it to another. -/

namespace HT.Spec

/-- What arrives under a name: if the name is present it has a value, and all its values are ASCII. -/
def Received (h : Headers) (name : Str) : Prop := ∀ vs, h.get name = some vs → vs ≠ [] ∧ ∀ v ∈ vs, Ascii v

/-- Whatever is read from a received collection, written to any other one, is read from there unchanged. -/
def Relays {α : Type} (name : Str) (value : α → Res Str) (read : Headers → Res (Option α)) : Prop :=
  ∀ h x, Received h name → read h = .ok (some x) → RoundTrips name (value x) read x

/-- Only what satisfies `P` is relayed so. -/
def RelaysIff {α : Type} (name : Str) (value : α → Res Str) (read : Headers → Res (Option α)) (P : α → Prop) : Prop :=
  ∀ h x, Received h name → read h = .ok (some x) → (RoundTrips name (value x) read x ↔ P x)

end HT.Spec
