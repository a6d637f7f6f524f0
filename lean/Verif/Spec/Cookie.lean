import Verif.Model.Cookie

/-!
What a browser does with a `Set-Cookie` line: RFC 6265, section 5.2.
-/

namespace HT.Spec

/-- Without the spaces and tabs around it. -/
def bare (s : Str) : Str :=
  ((s.dropWhile fun c => c == ' ' || c == '\t').reverse.dropWhile fun c => c == ' ' || c == '\t').reverse

/-- The pieces between semicolons. -/
def semiPieces : Str → List Str
  | [] => [[]]
  | c :: s =>
    if c = ';' then [] :: semiPieces s
    else match semiPieces s with
      | p :: ps => (c :: p) :: ps
      | [] => [[c]]

/-- Name, value and attributes of a line; `none`: the line is ignored. -/
def browserReads (line : Str) : Option (Str × Str × List Str) :=
  match semiPieces line with
  | [] => none
  | pair :: attrs =>
    if '=' ∈ pair ∧ bare (pair.takeWhile (· ≠ '=')) ≠ [] then
      some (bare (pair.takeWhile (· ≠ '=')), bare ((pair.dropWhile (· ≠ '=')).drop 1), attrs.map bare)
    else none

/-- A cookie a line can carry. -/
def Carried (name value : Str) (attrs : List Str) : Prop :=
  name ≠ [] ∧ '=' ∉ name ∧ ∀ t ∈ name :: value :: attrs, ';' ∉ t ∧ bare t = t

instance (n v : Str) (l : List Str) : Decidable (Carried n v l) := by unfold Carried; infer_instance

end HT.Spec
