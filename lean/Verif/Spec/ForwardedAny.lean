import Verif.Spec.Forwarded

/-! What the text of a `Forwarded` header says, for any text. Characters outside ASCII are judged by the
lowest eight bits of their code point, which is how the code under study judges them. -/

namespace HT.Spec

/-- The lowest eight bits of the code point. -/
def low (c : Char) : Nat := c.toNat % 256

/-- A character that may stand in a quoted string as itself. -/
def QAny (c : Char) : Prop :=
  low c = 9 ∨ low c = 15 ∨ low c = 32 ∨ (35 ≤ low c ∧ low c ≠ 92 ∧ low c ≠ 127)

/-- A character that may stand in a quoted string after a backslash. -/
def EscAny (c : Char) : Prop := low c = 9 ∨ (32 ≤ low c ∧ low c ≠ 127)

/-- A character that is accepted in a quoted string but left out of its meaning. -/
def Lost (c : Char) : Prop := low c = 92 ∧ c ≠ '\\'

/-- A character that is taken for the closing quote although it is longer than one byte. -/
def Broken (c : Char) : Prop := low c = 34 ∧ c ≠ '"'

/-- The inside of a quoted string and what it stands for. -/
inductive QuotedAny : Str → Str → Prop where
  | nil : QuotedAny [] []
  | plain {c s v} : QAny c → QuotedAny s v → QuotedAny (c :: s) (c :: v)
  | lost {c s v} : Lost c → QuotedAny s v → QuotedAny (c :: s) v
  | pair {c s v} : EscAny c → QuotedAny s v → QuotedAny ('\\' :: c :: s) (c :: v)

/-- A value, written as a token or as a quoted string. -/
def ParamAny (raw v : Str) : Prop :=
  (raw = v ∧ Token v) ∨ ∃ e, raw = '"' :: (e ++ ['"']) ∧ QuotedAny e v

/-- The fourth byte of the text is not the last byte of a character, although the text is longer. -/
def Straddles (s : Str) : Prop :=
  ∃ a c r, s = a ++ c :: r ∧ byteLen a < 4 ∧ 4 < byteLen a + utf8Len c

/-- `ForwardedAny s ps`: the text `s` lists the parameters `ps`; as `ForwardedText`, for any text. -/
inductive ForwardedAny : Str → List (Str × Str) → Prop where
  | nil : ForwardedAny [] []
  | pair {k raw v rest ps} : Token k → ¬ IsFor k → ParamAny raw v →
      ¬ Straddles (k ++ '=' :: (raw ++ ';' :: rest)) → ForwardedAny rest ps →
      ForwardedAny (k ++ '=' :: (raw ++ ';' :: rest)) ((k, v) :: ps)
  | adjacent {k raw v rest ps} : Token k → ¬ IsFor k → ParamAny raw v → (rest = [] ∨ ¬ Token raw) →
      ¬ Straddles (k ++ '=' :: (raw ++ rest)) → ForwardedAny rest ps →
      ForwardedAny (k ++ '=' :: (raw ++ rest)) ((k, v) :: ps)
  | last {k raw v} : IsFor k → ParamAny raw v → ForwardedAny (k ++ '=' :: raw) [(k, v)]
  | semi {k raw v rest ps} : IsFor k → ParamAny raw v → ForwardedAny rest ps →
      ForwardedAny (k ++ '=' :: (raw ++ ';' :: rest)) ((k, v) :: ps)
  | comma {k raw v w k' v' rest ps} : IsFor k → ParamAny raw v → (∀ c ∈ w, isWs c = true) → IsFor k' →
      ForwardedAny rest ((k', v') :: ps) →
      ForwardedAny (k ++ '=' :: (raw ++ ',' :: (w ++ rest))) ((k, v) :: (k', v') :: ps)

/-- The text starts with a `for` element. -/
def OpensFor (s : Str) : Prop := ∃ k r, s = k ++ '=' :: r ∧ IsFor k

/-- The texts on which reading breaks down, with the parameters listed before that point. After legal
elements there is
* an element whose fourth byte lies inside a character (`straddle`),
* a quoted value with a wide character that is taken for its closing quote (`quote`), or
* after a comma that follows a `for` element, and apart from leading whitespace, a text of fewer than four
  bytes or whose fourth byte lies inside a character (`here`). -/
inductive Breaks : Str → List (Str × Str) → Prop where
  | straddle {s} : Straddles s → Breaks s []
  | quote {k e v c r} : Token k → QuotedAny e v → Broken c → Breaks (k ++ '=' :: '"' :: (e ++ c :: r)) []
  | here {k raw v w rest} : IsFor k → ParamAny raw v → (∀ c ∈ w, isWs c = true) →
      (∀ c, rest.head? = some c → isWs c = false) → (byteLen rest < 4 ∨ Straddles rest) →
      Breaks (k ++ '=' :: (raw ++ ',' :: (w ++ rest))) [(k, v)]
  | pair {k raw v rest ps} : Token k → ¬ IsFor k → ParamAny raw v →
      ¬ Straddles (k ++ '=' :: (raw ++ ';' :: rest)) → Breaks rest ps →
      Breaks (k ++ '=' :: (raw ++ ';' :: rest)) ((k, v) :: ps)
  | adjacent {k raw v rest ps} : Token k → ¬ IsFor k → ParamAny raw v →
      (Token raw → ∀ c, rest.head? = some c → ¬ TChar c) → (∀ c, rest.head? = some c → c ≠ ';') →
      ¬ Straddles (k ++ '=' :: (raw ++ rest)) → Breaks rest ps →
      Breaks (k ++ '=' :: (raw ++ rest)) ((k, v) :: ps)
  | semi {k raw v rest ps} : IsFor k → ParamAny raw v → Breaks rest ps →
      Breaks (k ++ '=' :: (raw ++ ';' :: rest)) ((k, v) :: ps)
  | comma {k raw v w rest ps} : IsFor k → ParamAny raw v → (∀ c ∈ w, isWs c = true) → OpensFor rest →
      Breaks rest ps → Breaks (k ++ '=' :: (raw ++ ',' :: (w ++ rest))) ((k, v) :: ps)

/-- The `for` values that are read back: not empty, and either a token or made of characters that a quoted
string can hold. -/
def ForValueAny (v : Str) : Prop :=
  v ≠ [] ∧ (Token v ∨ ∀ c ∈ v, QAny c ∨ c = '"' ∨ c = '\\')

/-- The values that are read back from the text written for them. -/
def ForwardedWFAny (f : Forwarded) : Prop :=
  (∀ v ∈ f.forwardedFor, ForValueAny v) ∧ (∀ v ∈ f.by', Token v) ∧ (∀ v ∈ f.host, Token v) ∧
  (∀ v ∈ f.proto, Token v) ∧ (f.forwardedFor = [] → f.host = none ∧ f.proto = none)

end HT.Spec
