import Verif.Spec.Hyperium

/-! Specification of messages that are converted to the crate `http` and back. -/

namespace HT.Spec

/-- The values a name has before its headers are added again: those of the body's media type for the content type. -/
def ofMedia (mime : Option Mime) (n : Str) : Option (List Str) :=
  if n = s!!"content-type" then mime.map fun m => [m.display] else none

/-- What is left of the headers `before`: of each name the first value, and in front of it the body's media type for the content
type. -/
def CameBack (mime : Option Mime) (before after : Headers) : Prop :=
  ∀ n, (before.get n = none → after.get n = ofMedia mime n) ∧
    ∀ v vs, before.get n = some (v :: vs) → after.get n = some ((ofMedia mime n).getD [] ++ [v])

/-- Headers that come back as they were: one value for each name, and a body without a media type. (Or the content type twice
in the first place, as the body has it.) -/
def Unharmed (mime : Option Mime) (h : Headers) : Prop :=
  (∀ n vs, n ≠ s!!"content-type" → h.get n = some vs → vs.length = 1) ∧
    match mime with
    | none => ∀ vs, h.get s!!"content-type" = some vs → vs.length = 1
    | some m => h.get s!!"content-type" = some [m.display, m.display]

end HT.Spec
