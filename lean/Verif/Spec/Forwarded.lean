import Verif.Spec.Mime
import Verif.Model.Forwarded

/-! What the text of a `Forwarded` header says, for ASCII text. -/

namespace HT.Spec

/-- An ASCII character that may stand in a quoted string as itself. This is `qdtext` of RFC 7230 except
that `!` is missing and the control character 15 is allowed. -/
def QdText (c : Char) : Prop :=
  c = '\t' ∨ c = ' ' ∨ c.toNat = 15 ∨ (35 ≤ c.toNat ∧ c.toNat ≤ 126 ∧ c ≠ '\\')

/-- An ASCII character that may stand in a quoted string after a backslash. -/
def Escapable (c : Char) : Prop := c = '\t' ∨ (32 ≤ c.toNat ∧ c.toNat ≤ 126)

/-- The inside of a quoted string and what it stands for. -/
inductive QuotedText : Str → Str → Prop where
  | nil : QuotedText [] []
  | plain {c s v} : QdText c → QuotedText s v → QuotedText (c :: s) (c :: v)
  | pair {c s v} : Escapable c → QuotedText s v → QuotedText ('\\' :: c :: s) (c :: v)

/-- A value, written as a token or as a quoted string. -/
def ParamText (raw v : Str) : Prop :=
  (raw = v ∧ Token v) ∨ ∃ e, raw = '"' :: (e ++ ['"']) ∧ QuotedText e v

/-- The name of a parameter is `for`, in any letter case. -/
def IsFor (k : Str) : Prop := lower k = s!!"for"

/-- `ForwardedText s ps`: the text `s` lists the parameters `ps`. Elements that start with `for` may be
chained by commas; anything else is separated by semicolons, which may be left out after a quoted
value. -/
inductive ForwardedText : Str → List (Str × Str) → Prop where
  | nil : ForwardedText [] []
  | pair {k raw v rest ps} : Token k → ¬ IsFor k → ParamText raw v → ForwardedText rest ps →
      ForwardedText (k ++ '=' :: (raw ++ ';' :: rest)) ((k, v) :: ps)
  | adjacent {k raw v rest ps} : Token k → ¬ IsFor k → ParamText raw v → (rest = [] ∨ ¬ Token raw) →
      ForwardedText rest ps → ForwardedText (k ++ '=' :: (raw ++ rest)) ((k, v) :: ps)
  | last {k raw v} : IsFor k → ParamText raw v → ForwardedText (k ++ '=' :: raw) [(k, v)]
  | semi {k raw v rest ps} : IsFor k → ParamText raw v → ForwardedText rest ps →
      ForwardedText (k ++ '=' :: (raw ++ ';' :: rest)) ((k, v) :: ps)
  | comma {k raw v w k' v' rest ps} : IsFor k → ParamText raw v → (∀ c ∈ w, isWs c = true) → IsFor k' →
      ForwardedText rest ((k', v') :: ps) →
      ForwardedText (k ++ '=' :: (raw ++ ',' :: (w ++ rest))) ((k, v) :: (k', v') :: ps)

/-- The texts that are legal up to a comma after a `for` element and then have, apart from leading
whitespace, fewer than four characters left; with the parameters listed before the comma. -/
inductive CutShort : Str → List (Str × Str) → Prop where
  | here {k raw v w rest} : IsFor k → ParamText raw v → (∀ c ∈ w, isWs c = true) → rest.length < 4 →
      (∀ c, rest.head? = some c → isWs c = false) →
      CutShort (k ++ '=' :: (raw ++ ',' :: (w ++ rest))) [(k, v)]
  | pair {k raw v rest ps} : Token k → ¬ IsFor k → ParamText raw v → CutShort rest ps →
      CutShort (k ++ '=' :: (raw ++ ';' :: rest)) ((k, v) :: ps)
  | adjacent {k raw v rest ps} : Token k → ¬ IsFor k → ParamText raw v → ¬ Token raw →
      CutShort rest ps → CutShort (k ++ '=' :: (raw ++ rest)) ((k, v) :: ps)
  | semi {k raw v rest ps} : IsFor k → ParamText raw v → CutShort rest ps →
      CutShort (k ++ '=' :: (raw ++ ';' :: rest)) ((k, v) :: ps)
  | comma {k raw v w k' v' rest ps} : IsFor k → ParamText raw v → (∀ c ∈ w, isWs c = true) → IsFor k' →
      CutShort rest ((k', v') :: ps) →
      CutShort (k ++ '=' :: (raw ++ ',' :: (w ++ rest))) ((k, v) :: (k', v') :: ps)

/-- The values of the parameters named exactly `k`. -/
def valuesOf (k : Str) (ps : List (Str × Str)) : List Str := (ps.filter (fun p => p.1 = k)).map (·.2)

/-- `by`, `host` and `proto` are given at most once. -/
def NoRepeats (ps : List (Str × Str)) : Prop :=
  ∀ k ∈ [s!!"by", s!!"host", s!!"proto"], (valuesOf k ps).length ≤ 1

/-- The parameters `ps` amount to `f`: `by`, `host` and `proto` are given at most once, other parameters
do not count. -/
def AmountsTo (ps : List (Str × Str)) (f : Forwarded) : Prop :=
  f.forwardedFor = (ps.filter (fun p => lower p.1 = s!!"for")).map (·.2) ∧
  valuesOf s!!"by" ps = f.by'.toList ∧ valuesOf s!!"host" ps = f.host.toList ∧
  valuesOf s!!"proto" ps = f.proto.toList

/-- The `for` values can be written: not empty, and either a token or made of characters that a quoted
string can hold. -/
def ForValue (v : Str) : Prop :=
  v ≠ [] ∧ (Token v ∨ ∀ c ∈ v, QdText c ∨ c = '"' ∨ c = '\\')

/-- The values that survive being written and read back. -/
def ForwardedWF (f : Forwarded) : Prop :=
  (∀ v ∈ f.forwardedFor, ForValue v) ∧ (∀ v ∈ f.by', Token v) ∧ (∀ v ∈ f.host, Token v) ∧
  (∀ v ∈ f.proto, Token v) ∧ (f.forwardedFor = [] → f.host = none ∧ f.proto = none)

/-- The first value of a header, if the header is there. -/
def FirstValue (h : Headers) (name : HeaderName) (o : Option Str) : Prop :=
  match o with
  | none => h.get name = none
  | some v => ∃ vs, h.get name = some (v :: vs)

/-- How an entry of `X-Forwarded-For` is kept: IPv6 addresses in brackets and in the canonical form `v6`
gives them, anything else as it is, without surrounding whitespace. -/
def XEntry (v6 : Str → Option Str) (written kept : Str) : Prop :=
  (∀ a, v6 (trim written) = some a → kept = s!!"[" ++ a ++ s!!"]") ∧ (v6 (trim written) = none → kept = trim written)

end HT.Spec
