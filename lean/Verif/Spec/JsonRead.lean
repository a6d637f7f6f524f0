import Verif.Spec.Json

/-! Which JSON values describe a report group. -/

namespace HT.Spec

/-- The values of the members of that name. -/
def membersOf (l : List (Str × Json)) (n : Str) : List Json := (l.filter fun p => p.1 = n).map (·.2)

/-- There is no member of the name, or one that is null, and nothing is meant; or there is one with the value meant. -/
def Optional {α : Type} (vs : List Json) (f : α → Json) : Option α → Prop
  | none => vs = [] ∨ vs = [.null]
  | some a => vs = [f a]

/-- The value describes an endpoint. -/
def IsEndpoint (j : Json) (u : Str) : Prop :=
  (∃ l, j = .obj l ∧ membersOf l s!!"url" = [.str u]) ∨ j = .arr [.str u]

/-- A number of 32 bits with a sign. -/
def IsI32 (n : Int) : Prop := -2 ^ 31 ≤ n ∧ n < 2 ^ 31

/-- The object describes the group: its name, seconds, endpoints and flag are each given at most once, the seconds and
endpoints exactly once. -/
def Describes (l : List (Str × Json)) (r : ReportTo) : Prop :=
  Optional (membersOf l s!!"group") Json.str r.group ∧
  (membersOf l s!!"max_age" = [.int r.maxAge] ∧ IsI32 r.maxAge) ∧
  (∃ es, membersOf l s!!"endpoints" = [.arr es] ∧ List.Forall₂ IsEndpoint es r.endpoints) ∧
  Optional (membersOf l s!!"include_subdomains") Json.bool r.includeSubdomains

end HT.Spec
