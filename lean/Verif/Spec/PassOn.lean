import Verif.Spec.Written
import Verif.Spec.WrittenPrefs

/-!
Passing on the meaning of a header: what others read from the line that is written in place of the lines that were
received.
-/

namespace HT.Spec

/-- The header is read, and what is written for it is read by others as `x` and as nothing else. -/
def PassesOn {β γ : Type} (read : Headers → Res (Option β)) (write : β → Res HeaderValue) (R : Str → γ → Prop)
    (h : Headers) (x : γ) : Prop :=
  ∃ b v, read h = .ok (some b) ∧ write b = .ok v ∧ OnlyAs (R v) x

/-- The members of a list without regard to their order and number. -/
def AsSet {α : Type} (R : Str → List α → Prop) (v : Str) (s : α → Prop) : Prop := ∃ xs, R v xs ∧ ∀ x, s x ↔ x ∈ xs

/-- What counts of a media range: type and subtype, weight, and the values of its own parameters. -/
structure RangeSense where
  base : Str
  sub : Str
  weight : Nat
  param : Str → Option Str

/-- What counts of the range. -/
def MediaRange.sense (r : MediaRange) : RangeSense := ⟨lower r.base, lower r.sub, r.weight, firstValue r.own⟩

/-- The media ranges of the line by what counts of them. -/
def AcceptText (v : Str) (xs : List RangeSense) : Prop := ∃ rs, AnyListed RangeText v rs ∧ xs = rs.map MediaRange.sense

end HT.Spec
