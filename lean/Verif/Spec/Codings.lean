import Verif.Spec.Listed

/-!
The codings applied to a body: Content-Encoding (RFC 7231 section 3.1.2.2) and Transfer-Encoding (RFC 7230
section 3.3.1) list them in the order in which they were applied.
-/

namespace HT.Spec

/-- `content-coding` and the name of a `transfer-coding`, as written. -/
def CodingText (t n : Str) : Prop := Token t ∧ n = t

/-- The field lines `vs` have the elements `ms`, line by line. -/
def CodingLines (vs : List Str) (ms : List (List (Option Str))) : Prop :=
  List.Forall₂ (fun v m => Listed CodingText [v] m) vs ms

/-- The name by which a coding is known: the case does not count, and `x-gzip` is `gzip` (RFC 7230 section 4.2.3). -/
def codingName (n : Str) : Str := if lower n = s!!"x-gzip" then s!!"gzip" else lower n

/-- The coding that was applied last and has to be removed first. -/
def Outermost {α : Type} (table : List (Str × α)) (ms : List (List (Option Str))) (e : α) : Prop :=
  ∃ n, (ms.flatten.filterMap id).getLast? = some n ∧ (codingName n, e) ∈ table

/-- A line with nothing but one coding of the table, as the table spells it. -/
def PlainLine {α : Type} (table : List (Str × α)) (m : List (Option Str)) : Prop :=
  ∃ n e, m = [some n] ∧ (n, e) ∈ table

end HT.Spec
