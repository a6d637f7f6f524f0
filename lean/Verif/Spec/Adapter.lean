import Verif.Spec.Hyperium

/-! Specification of messages that go through a conversion and back. -/

namespace HT.Spec

/-- A header map the crate can hold: it takes every name (`ok`), and no value has a control byte but tab. -/
def HttpHeld (ok : Str → Bool) (m : HMap) : Prop :=
  HttpMap m ∧ ∀ e ∈ m, ok e.1 = true ∧ ∀ v ∈ e.2, ∀ b ∈ v, b.val = 9 ∨ (32 ≤ b.val ∧ b.val ≠ 127)

/-- What the conversion of a message leaves of its headers `m`: the first value of each; the content type begins with
the media type of the body, if the body has one. -/
def Through {α : Type} (mime : Option α) (m m' : FMap Str (List α)) : Prop :=
  ∀ n, FMap.get m' n =
    match FMap.get m n, (if n = s!!"content-type" then mime else none) with
    | some (v :: _), some d => some [d, v]
    | some (v :: _), none => some [v]
    | _, some d => some [d]
    | _, none => none

/-- The headers that get through unchanged: one value each, but the content type, when the body has a media type,
has that type as its value, twice. -/
def GetsThrough {α : Type} (mime : Option α) (m : FMap Str (List α)) : Prop :=
  (∀ n vs, FMap.get m n = some vs → n ≠ s!!"content-type" → ∃ v, vs = [v]) ∧
    match mime with
    | none => ∀ vs, FMap.get m s!!"content-type" = some vs → ∃ v, vs = [v]
    | some d => FMap.get m s!!"content-type" = some [d, d]

/-- The same headers with the same values in the same order. -/
def SameHeaders {α : Type} (m m' : FMap Str (List α)) : Prop := ∀ n, FMap.get m' n = FMap.get m n

end HT.Spec
