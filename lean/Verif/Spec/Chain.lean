import Verif.Spec.Forwarded
import Verif.Spec.Prefs

/-! The Forwarded header by RFC 7239, section 4. -/

namespace HT.Spec

/-- A pair: its name, its value and the value as written. -/
structure FwdPair where
  name : Str
  value : Str
  raw : Str

/-- An element of the list, with the blanks around it. A pair may be missing. -/
structure FwdElement where
  before : Str
  pairs : List (Option FwdPair)
  after : Str

/-- `[ token "=" value ]`. -/
def fwdPairText : Option FwdPair → Str
  | none => []
  | some p => p.name ++ '=' :: p.raw

/-- `[ forwarded-pair ] *( ";" [ forwarded-pair ] )`. -/
def fwdPairsText (ps : List (Option FwdPair)) : Str := join s!!";" (ps.map fwdPairText)

/-- The whole value, `1#forwarded-element`. -/
def chainText (es : List FwdElement) : Str :=
  join s!!"," (es.map fun e => e.before ++ fwdPairsText e.pairs ++ e.after)

/-- The pairs that are there. -/
def FwdElement.given (e : FwdElement) : List (Str × Str) := (e.pairs.filterMap id).map fun p => (p.name, p.value)
def chainPairs (es : List FwdElement) : List (Str × Str) := es.flatMap FwdElement.given

/-- An element of the standard: no parameter occurs twice, names being without regard to case. -/
structure LegalElement (e : FwdElement) : Prop where
  before : Ows e.before
  after : Ows e.after
  some : e.pairs ≠ []
  pair : ∀ p, Option.some p ∈ e.pairs → Token p.name ∧ ValueText p.raw p.value
  once : e.given.Pairwise fun p q => lower p.1 ≠ lower q.1

/-- A value of the standard. -/
def LegalChain (es : List FwdElement) : Prop := es ≠ [] ∧ ∀ e ∈ es, LegalElement e

/-- The values of a parameter, whose name is without regard to case. -/
def paramValues (name : Str) (es : List FwdElement) : List Str :=
  ((chainPairs es).filter fun p => lower p.1 = name).map (·.2)

/-- What a chain means: all `for` values; `by`, `host` and `proto` are given by one element at most. -/
def ChainMeans (es : List FwdElement) (f : Forwarded) : Prop :=
  f.forwardedFor = paramValues s!!"for" es ∧ f.by'.toList = paramValues s!!"by" es ∧
  f.host.toList = paramValues s!!"host" es ∧ f.proto.toList = paramValues s!!"proto" es

/-- An exclamation mark in a quoted string that is not escaped. -/
def BareBang (raw : Str) : Prop := ∃ s v r, raw = '"' :: (s ++ '!' :: r) ∧ Escaped s v

/-- The pair is there and named `for`. -/
def ForPair : Option FwdPair → Prop
  | none => False
  | some p => IsFor p.name

/-- Two elements that may follow each other: the first ends in `for`, the second starts with it. -/
def ForMeets (e e' : FwdElement) : Prop :=
  (∃ p, e.pairs.getLast? = some p ∧ ForPair p) ∧ ∃ p, e'.pairs.head? = some p ∧ ForPair p

/-- The chains that are understood: no blanks but after commas, no missing pairs but one at the very end, no unescaped
exclamation marks, and commas between two `for` pairs only. -/
structure PlainChain (es : List FwdElement) : Prop where
  first : ∀ e, es.head? = some e → e.before = []
  after : ∀ e ∈ es, e.after = []
  given : ∀ e ∈ es, none ∉ e.pairs.dropLast
  raw : ∀ e ∈ es, ∀ p, some p ∈ e.pairs → ¬ BareBang p.raw
  meet : es.IsChain ForMeets

/-- The names of `by`, `host` and `proto` are in lower case. -/
def LowerNames (es : List FwdElement) : Prop :=
  ∀ p ∈ chainPairs es, lower p.1 ∈ [s!!"by", s!!"host", s!!"proto"] → lower p.1 = p.1

end HT.Spec
