import Verif.Spec.Written
import Verif.Spec.Negotiate
import Verif.Spec.Codings

/-!
What other implementations read from lists of preferences and from codings: Accept-Encoding (RFC 7231 section 5.3.4), TE
(RFC 7230 section 4.3) and Accept (RFC 7231 section 5.3.2) are `#element`; Content-Encoding and Transfer-Encoding.
-/

namespace HT.Spec

/-- `#element`. -/
def AnyListed {α : Type} (P : Str → α → Prop) (v : Str) (xs : List α) : Prop :=
  ∃ ms, Listed P [v] ms ∧ xs = ms.filterMap id

/-- A coding or the asterisk, with its weight in thousandths if there is one. -/
def PrefText (t : Str) (x : Str × Option Nat) : Prop := ∃ plain, Pref t x.1 x.2 plain

/-- A media range: type and parameter names in lower case. There is no white space around it. -/
def RangeText (t : Str) (r : MediaRange) : Prop :=
  (∀ c, t.head? = some c → isWs c = false) ∧ (∀ c, t.getLast? = some c → isWs c = false) ∧
  ∃ base sub ps, MediaPref t base sub ps r.weight ∧ r.base = lower base ∧ r.sub = lower sub ∧
    r.ps = ps.map fun e => (lower e.1, e.2)

/-- `k` thousandths are what is written for the weight `w`: nearest to it. -/
def WeightOf (w : Fl) (k : Nat) : Prop := ∃ m, w = .fin false m ∧ k ≤ 1000 ∧ 2 * gap (m * 1000) (2 ^ 149 * k) ≤ 2 ^ 149

/-- A proposal for a coding and what others shall read of it. -/
def SamePref {α : Type} (table : List (Str × α)) (p : Proposal α) (x : Str × Option Nat) : Prop :=
  (x.1, p.item) ∈ table ∧ match p.weight with
    | none => x.2 = none
    | some w => ∃ k, x.2 = some k ∧ WeightOf w k

/-- A proposal for a media type and what others shall read of it: without weight it is 1. -/
def SameRange (p : Proposal Mime) (r : MediaRange) : Prop :=
  r.base = p.item.basetype ∧ r.sub = p.item.subtype ∧
  r.own = (if p.item.isUtf8 then [(s!!"charset", s!!"utf-8")] else []) ++ p.item.params ∧
  match p.weight with
    | none => r.weight = 1000
    | some w => WeightOf w r.weight

/-- The coding that others remove first. -/
def ReadCoding {α : Type} (table : List (Str × α)) (v : Str) (e : α) : Prop :=
  ∃ ms, CodingLines [v] ms ∧ Outermost table ms e

end HT.Spec
