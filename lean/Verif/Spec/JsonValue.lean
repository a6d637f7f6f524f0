import Verif.Spec.Json

/-! Values that can be put into a body as JSON. -/

namespace HT.Spec

mutual
/-- What a program can hold as a value: integers of 64 bits, and objects as maps by name, in the order of their names. -/
def IsValue : Json → Prop
  | .int n => -9223372036854775808 ≤ n ∧ n ≤ 18446744073709551615
  | .arr l => AreValues l
  | .obj l => l.Pairwise (fun p q => p.1 < q.1) ∧ AreMembers l
  | _ => True
/-- The elements are values. -/
def AreValues : List Json → Prop
  | [] => True
  | v :: l => IsValue v ∧ AreValues l
/-- The members are values. -/
def AreMembers : List (Str × Json) → Prop
  | [] => True
  | p :: l => IsMember p ∧ AreMembers l
/-- The member is a value. -/
def IsMember : Str × Json → Prop
  | (_, v) => IsValue v
end

/-- There are at most so many arrays and objects within each other. -/
inductive Nested : Nat → Json → Prop
  | null {n} : Nested n .null
  | bool {n b} : Nested n (.bool b)
  | int {n i} : Nested n (.int i)
  | str {n s} : Nested n (.str s)
  | arr {n l} : (∀ v ∈ l, Nested n v) → Nested (n + 1) (.arr l)
  | obj {n l} : (∀ p ∈ l, Nested n p.2) → Nested (n + 1) (.obj l)

/-- So many arrays within each other. -/
def arrays : Nat → Json
  | 0 => .null
  | n + 1 => .arr [arrays n]

end HT.Spec
