import Verif.Spec.Prefs

/-!
What a list of preferences says of what is available: RFC 7231 section 5.3.4 for codings and section 5.3.2 for media
types. Weights are counted in thousandths.
-/

namespace HT.Spec

/-- The weight a member of the list states: 1 if none is written. -/
def Member.stated (e : Member) : Nat := e.weight.getD 1000

/-- The weight of the coding with name `n`: that of the member with its name, failing that of the asterisk, failing
that 0. -/
def codingWeight (es : List Member) (n : Str) : Nat :=
  match es.find? fun e => sameName e.name n with
  | some e => e.stated
  | none => match es.find? fun e => e.name = s!!"*" with
    | some e => e.stated
    | none => 0

/-- The coding is acceptable: its weight is not 0, or it is no coding at all and the list says nothing of it. -/
def CodingAcceptable (es : List Member) (n : Str) : Prop :=
  0 < codingWeight es n ∨
    n = s!!"identity" ∧ ∀ e ∈ es, sameName e.name s!!"identity" = false ∧ e.name ≠ s!!"*"

/-- A choice among the available codings by the standard: one of them, acceptable, and none has more weight. -/
def GoodCoding {α : Type} (table : List (Str × α)) (es : List Member) (available : List α) (x : α) : Prop :=
  x ∈ available ∧ ∃ n, (n, x) ∈ table ∧ CodingAcceptable es n ∧
    ∀ m y, (m, y) ∈ table → y ∈ available → codingWeight es m ≤ codingWeight es n

/-- The list is written plainly: small letters, no white space after a semicolon, no name twice. -/
def PlainMembers (es : List Member) : Prop :=
  (∀ e ∈ es, e.plain = true ∧ lower e.name = e.name) ∧ (es.map (·.name)).Nodup

/-- Either no member has a weight, or all have one, which is 0 for the asterisk and only for it. -/
def EvenWeights (es : List Member) : Prop :=
  (∀ e ∈ es, e.weight = none) ∨ ∀ e ∈ es, ∃ k, e.weight = some k ∧ (k = 0 ↔ e.name = s!!"*")

/-- A media range with its parameters and weight. -/
structure MediaRange where
  base : Str
  sub : Str
  ps : List (Str × Str)
  weight : Nat

/-- The ranges of the values, blank members left out. -/
def Ranges (vs : List Str) (rs : List MediaRange) : Prop :=
  List.Forall₂ (fun s r => MediaPref s r.base r.sub r.ps r.weight) ((listItems vs).filter (· ≠ [])) rs

/-- The parameters of the range that come before the weight in meaning: all but `q`. -/
def MediaRange.own (r : MediaRange) : List (Str × Str) := r.ps.filter fun e => !sameName e.1 s!!"q"

/-- The media type falls into the range. -/
def MediaRange.Applies (r : MediaRange) (m : Mime) : Prop :=
  (r.base = s!!"*" ∨ m.basetype = lower r.base) ∧ (r.sub = s!!"*" ∨ m.subtype = lower r.sub) ∧
    ∀ n v, firstValue r.own n = some v → m.param (lower n) = some v

/-- How specific a range is: `*/*`, then `type/*`, then `type/subtype`, then with parameters, the more the higher. -/
def MediaRange.rank (r : MediaRange) : Nat :=
  if r.base = s!!"*" then 0 else if r.sub = s!!"*" then 1 else 2 + r.own.length

/-- `k` is the weight of the media type: that of a range it falls into such that it falls into no more specific one,
or 0 if it falls into none. -/
def TypeWeight (rs : List MediaRange) (m : Mime) (k : Nat) : Prop :=
  (∃ r ∈ rs, r.Applies m ∧ r.weight = k ∧ ∀ r' ∈ rs, r'.Applies m → r'.rank ≤ r.rank) ∨
    (k = 0 ∧ ∀ r ∈ rs, ¬ r.Applies m)

/-- A choice among the available media types by the standard: one of them, its weight is not 0, and none has more. -/
def GoodType (rs : List MediaRange) (available : List Mime) (m : Mime) : Prop :=
  m ∈ available ∧ ∃ k, 0 < k ∧ TypeWeight rs m k ∧ ∀ m' ∈ available, ∀ k', TypeWeight rs m' k' → k' ≤ k

/-- More specific ranges have no less weight: of two ranges with a common available type. -/
def RisingWeights (rs : List MediaRange) (available : List Mime) : Prop :=
  ∀ m ∈ available, ∀ r ∈ rs, ∀ r' ∈ rs, r.Applies m → r'.Applies m → r.rank ≤ r'.rank → r.weight ≤ r'.weight

end HT.Spec
