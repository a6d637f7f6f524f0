import Verif.Spec.Content
import Verif.Spec.Mime

/-!
Preference lists by the standards: weights (RFC 7231 section 5.3.1) and the members of Accept-Encoding, TE and Accept
(RFC 7231 sections 5.3.2 and 5.3.4, RFC 7230 section 4.3).
-/

namespace HT.Spec

/-- `qvalue`: the text of a weight and its value in thousandths. -/
inductive QValue : Str → Nat → Prop where
  | zero : QValue s!!"0" 0
  | one : QValue s!!"1" 1000
  | zeroPoint {ds} : Digits ds → ds.length ≤ 3 → QValue ('0' :: '.' :: ds) (decValue ds * 10 ^ (3 - ds.length))
  | onePoint {zs} : (∀ c ∈ zs, c = '0') → zs.length ≤ 3 → QValue ('1' :: '.' :: zs) 1000

/-- Optional white space. -/
def Ows (s : Str) : Prop := ∀ c ∈ s, c = ' ' ∨ c = '\t'

/-- `Pref s n k plain`: the member `s` names `n` with weight `k` thousandths or without weight; it is plain if no white
space follows the semicolon and the `q` is a small letter. -/
inductive Pref : Str → Str → Option Nat → Bool → Prop where
  | bare {n} : Token n → Pref n n none true
  | weighted {n a b c t k} : Token n → Ows a → Ows b → (c = 'q' ∨ c = 'Q') → QValue t k →
      Pref (n ++ (a ++ ';' :: (b ++ c :: '=' :: t))) n (some k) (b == [] && c == 'q')

/-- The content codings by name. -/
def contentCodings : List (Str × Encoding) :=
  [(s!!"gzip", .gzip), (s!!"deflate", .deflate), (s!!"br", .brotli), (s!!"zstd", .zstd), (s!!"identity", .identity)]

/-- The transfer codings by name. -/
def transferCodings : List (Str × TEncoding) :=
  [(s!!"gzip", .gzip), (s!!"deflate", .deflate), (s!!"br", .brotli), (s!!"zstd", .zstd), (s!!"identity", .identity),
    (s!!"chunked", .chunked)]

/-- A member of the list: its name, its weight in thousandths, and whether it is plain. -/
structure Member where
  name : Str
  weight : Option Nat
  plain : Bool

/-- The members of the values, blank ones left out. -/
def Members (vs : List Str) (es : List Member) : Prop :=
  List.Forall₂ (fun s e => Pref s e.name e.weight e.plain) ((listItems vs).filter (· ≠ [])) es

/-- The proposals for the codings of the table, in order. -/
def memberProposals {α : Type} (table : List (Str × α)) (es : List Member) : List (Proposal α) :=
  es.flatMap fun e => (table.filter fun r => r.1 = e.name).map fun r => ⟨r.2, e.weight.map thousandths⟩

/-- What the standard says of a member of Accept: a media range with parameters, of which the first `q` is the weight. -/
inductive MediaPref : Str → Str → Str → List (Str × Str) → Nat → Prop where
  | bare {s base sub ps} : MediaText s base sub ps → firstValue ps s!!"q" = none → MediaPref s base sub ps 1000
  | weighted {s base sub ps t k} : MediaText s base sub ps → firstValue ps s!!"q" = some t → QValue t k →
      MediaPref s base sub ps k

end HT.Spec
