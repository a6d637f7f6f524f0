import Verif.Spec.Lists
import Verif.Spec.Mime
import Verif.Spec.Float
import Verif.Model.Security

/-!
Lists of directives by the standards: Cache-Control (RFC 7234 section 5.2, with RFC 5861 and RFC 8246) and
Strict-Transport-Security (RFC 6797 section 6.1).
-/

namespace HT.Spec

/-- A directive: its name as written, its argument, and whether the argument was written as a quoted string. -/
structure Dir where
  name : Str
  arg : Option Str
  quoted : Bool

/-- `token [ "=" ( token / quoted-string ) ]`. -/
inductive DirText : Str → Dir → Prop where
  | bare {n} : Token n → DirText n ⟨n, none, false⟩
  | token {n v} : Token n → Token v → DirText (n ++ '=' :: v) ⟨n, some v, false⟩
  | quoted {n e v} : Token n → Escaped e v → (∀ c ∈ v, QuotedChar c) →
      DirText (n ++ '=' :: '"' :: (e ++ ['"'])) ⟨n, some v, true⟩

/-- A member of a list, with optional white space around it; members may be empty. -/
def DirMember (p : Str) (m : Option Dir) : Prop :=
  ∃ a t b, (∀ c ∈ a, c = ' ' ∨ c = '\t') ∧ (∀ c ∈ b, c = ' ' ∨ c = '\t') ∧ p = a ++ (t ++ b) ∧
    match m with
    | none => t = []
    | some d => DirText t d

/-- A field value: members with a separator between them. -/
def DirList (sep : Char) (v : Str) (ds : List Dir) : Prop :=
  ∃ ps ms, ps ≠ [] ∧ v = join [sep] ps ∧ List.Forall₂ DirMember ps ms ∧ ds = ms.filterMap id

/-- What a cache directive means: names up to case, arguments in either form; `none` for an extension. -/
inductive CacheMeans (d : Dir) : Option CacheDirective → Prop where
  | flag {n c} : (n, c) ∈ cacheFlags → sameName d.name n = true → CacheMeans d (some c)
  | stale : sameName d.name s!!"max-stale" = true → d.arg = none → CacheMeans d (some (.maxStale none))
  | timed {n f v} : (n, f) ∈ cacheTimed → sameName d.name n = true → d.arg = some v → v ≠ [] → Digits v →
      CacheMeans d (some (f ⟨decValue v, 0⟩))
  | other : (∀ e ∈ cacheFlags, sameName d.name e.1 = false) → (∀ e ∈ cacheTimed, sameName d.name e.1 = false) →
      CacheMeans d none

/-- The argument of a directive that takes a number was not quoted and is below 2^64. -/
def PlainNumber (d : Dir) : Prop :=
  (∃ e ∈ cacheTimed, sameName d.name e.1 = true) →
    d.quoted = false ∧ ∀ v, d.arg = some v → decValue v < 2 ^ 64

/-- What a policy means: no directive twice; `max-age` with digits; the two flags by name; names up to case. -/
structure HstsMeans (ds : List Dir) (p : Hsts) : Prop where
  once : ds.Pairwise fun a b => sameName a.name b.name = false
  maxAge : ∃ d ∈ ds, sameName d.name s!!"max-age" = true ∧
    ∃ v, d.arg = some v ∧ v ≠ [] ∧ Digits v ∧ p.maxAge = ⟨decValue v, 0⟩
  subdomains : p.includeSubdomains = true ↔ ∃ d ∈ ds, sameName d.name s!!"includeSubDomains" = true ∧ d.arg = none
  preload : p.preload = true ↔ ∃ d ∈ ds, sameName d.name s!!"preload" = true ∧ d.arg = none

end HT.Spec
