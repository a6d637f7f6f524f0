import Verif.Spec.Mime

/-!
Specification vocabulary for C92: when two media types as written are the same (RFC 7231 section 3.1.1.1).
-/

namespace HT.Spec

/-- The parameters agree one by one: names up to the case of letters, values exactly. -/
def SameParams (ps qs : List (Str × Str)) : Prop := List.Forall₂ (fun e f => sameName e.1 f.1 = true ∧ e.2 = f.2) ps qs

/-- Some parameter, as written, is `charset=utf-8`. -/
def saysUtf8 (ps : List (Str × Str)) : Bool := ps.any fun e => sameName e.1 s!!"charset" && e.2 == s!!"utf-8"

/-- The parameters as written without `charset=utf-8` and without those whose name came before. -/
def distinct (ps : List (Str × Str)) : List (Str × Str) :=
  go (ps.filter fun e => !(sameName e.1 s!!"charset" && e.2 == s!!"utf-8"))
where
  /-- The first parameter of each name. -/
  go : List (Str × Str) → List (Str × Str)
  | [] => []
  | p :: ps => p :: (go ps).filter fun e => !sameName e.1 p.1

/-- The same media type by RFC 7231: type, subtype and parameter names up to case, parameters in any order, the value of
`charset` up to case. -/
def SameMedia (base sub : Str) (ps : List (Str × Str)) (base' sub' : Str) (qs : List (Str × Str)) : Prop :=
  sameName base base' = true ∧ sameName sub sub' = true ∧
    ∀ n, match firstValue ps n, firstValue qs n with
      | none, none => True
      | some v, some w => v = w ∨ (sameName n s!!"charset" = true ∧ sameName v w = true)
      | _, _ => False

end HT.Spec
