import Verif.Spec.Listed
import Verif.Spec.Directives

/-!
What other implementations read from list and directive headers: field values as relations between text and meaning, by
RFC 7230 section 7 (`1#element` needs an element, `#element` does not), RFC 7232, RFC 7231, RFC 7234, RFC 6797,
Clear-Site-Data, and the timing allow check of Fetch.
-/

namespace HT.Spec

/-- The field value is read as `x` by everybody who follows the standard, and as nothing else. -/
def OnlyAs {α : Type} (R : α → Prop) (x : α) : Prop := ∀ y, R y ↔ y = x

/-- `1#element`. -/
def SomeListed {α : Type} (P : Str → α → Prop) (v : Str) (xs : List α) : Prop :=
  ∃ ms, Listed P [v] ms ∧ xs = ms.filterMap id ∧ xs ≠ []

/-- `"*" / 1#element`. -/
inductive StarText {α : Type} (P : Str → α → Prop) (v : Str) : StarList α → Prop where
  | star {a b} : Ows a → Ows b → v = a ++ '*' :: b → StarText P v ⟨[], true⟩
  | list {xs} : SomeListed P v xs → StarText P v ⟨xs, false⟩

/-- Allow: `#method`. -/
def AllowText (v : Str) (ns : List Str) : Prop := ∃ ms, Listed MethodText [v] ms ∧ ns = ms.filterMap id

/-- Clear-Site-Data: `1#( quoted-string )`. -/
def ClearText (v : Str) (l : StarList ClearDirective) : Prop :=
  ∃ ms, Listed QuotedName [v] ms ∧ ms.filterMap id ≠ [] ∧ l = clearOf ms

/-- Cache-Control: `1#cache-directive`; extensions are left out. -/
def CacheText (v : Str) (cs : List CacheDirective) : Prop :=
  ∃ ds os, DirList ',' v ds ∧ ds ≠ [] ∧ List.Forall₂ CacheMeans ds os ∧ cs = os.filterMap id

/-- Strict-Transport-Security. -/
def HstsText (v : Str) (p : Hsts) : Prop := ∃ ds, DirList ';' v ds ∧ HstsMeans ds p

/-- The timing allow check of Fetch (4.9): a value is the wildcard or the serialized origin. -/
def TimingAllows (v origin : Str) : Prop :=
  ∃ p ∈ split ',' v, ∃ a b, Ows a ∧ Ows b ∧ (p = a ++ (s!!"*" ++ b) ∨ p = a ++ (origin ++ b))

/-- A serialized origin: scheme, two slashes, host and port. -/
def SerializedOrigin (o : Str) : Prop := ∃ s h, o = s ++ (s!!"://" ++ h) ∧ '/' ∉ s ∧ '/' ∉ h

end HT.Spec
