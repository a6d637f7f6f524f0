import Verif.Spec.Lists
import Verif.Spec.Prefs

/-!
Comma-separated lists by the standards (RFC 7230 section 7): entity tags (RFC 7232), field names and methods
(RFC 7231), Clear-Site-Data (W3C), Timing-Allow-Origin (W3C Resource Timing).
-/

namespace HT.Spec

/-- An element of a list, with optional white space around it; `none` for an empty element, which a recipient has to
pass over. -/
def Element {α : Type} (P : Str → α → Prop) (p : Str) (m : Option α) : Prop :=
  ∃ a t b, Ows a ∧ Ows b ∧ p = a ++ (t ++ b) ∧
    match m with
    | none => t = []
    | some x => P t x

/-- Field values with the elements `ms` between commas. -/
def Listed {α : Type} (P : Str → α → Prop) (vs : List Str) (ms : List (Option α)) : Prop :=
  ∃ pss : List (List Str), (∀ ps ∈ pss, ps ≠ []) ∧ vs = pss.map (join [',']) ∧
    List.Forall₂ (Element P) pss.flatten ms

/-- `entity-tag`. -/
def TagText (t : Str) (e : ETag) : Prop := t = etagText e ∧ EtagLegal e

/-- `field-name`, of which the case does not count; `*` has a meaning of its own. -/
def NameText (t : Str) (n : HeaderName) : Prop := Token t ∧ t ≠ s!!"*" ∧ n = lower t

/-- `method`, as written. -/
def MethodText (t n : Str) : Prop := Token t ∧ n = t

/-- A quoted string without escapes, as the names of Clear-Site-Data are. -/
def QuotedName (t n : Str) : Prop := t = '"' :: (n ++ ['"']) ∧ ∀ c ∈ n, c ≠ '"' ∧ c ≠ '\\'

/-- The names of Clear-Site-Data: the kinds of data, and `none` for the wildcard. -/
def clearNames : List (Str × Option ClearDirective) :=
  [(s!!"cache", some .cache), (s!!"cookies", some .cookies), (s!!"storage", some .storage),
    (s!!"executionContexts", some .executionContexts), (s!!"*", none)]

/-- An element of Timing-Allow-Origin. -/
inductive TimingOrigin (Url : Type) where
  | star
  | null
  | origin (u : Url)

/-- `*`, `null` or a serialised origin, for the URL parser `parse`. -/
inductive OriginText {Url : Type} (parse : Str → Option Url) : Str → TimingOrigin Url → Prop where
  | star : OriginText parse s!!"*" .star
  | null : OriginText parse s!!"null" .null
  | origin {t u} : t ≠ [] → (∀ c ∈ t, isWs c = false ∧ c ≠ ',') → parse t = some u → OriginText parse t (.origin u)

/-- What the URL standard says of a parser without base: blanks at the end do not count, and texts without a scheme
are no URLs. -/
structure UrlParser {Url : Type} (parse : Str → Option Url) : Prop where
  blanks : ∀ t b, Ows b → parse (t ++ b) = parse t
  relative : ∀ t, ':' ∉ t → parse t = none

/-- The origins of a list. -/
def originsOf {Url : Type} (ms : List (Option (TimingOrigin Url))) : List Url :=
  ms.filterMap fun
    | some (.origin u) => some u
    | _ => none

/-- The kinds of data of a list of names, and whether the wildcard is among them. -/
def clearOf (ms : List (Option Str)) : StarList ClearDirective :=
  ⟨ms.filterMap fun m => m.bind fun n => (clearNames.lookup n).bind id, decide (some s!!"*" ∈ ms)⟩

end HT.Spec
