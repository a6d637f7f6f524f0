import Verif.Spec.Security

/-!
How a browser reads a Content-Security-Policy header (Content Security Policy Level 3, 2.2.1 and 2.2.2), and what the
calls that build a policy ask for.
-/

namespace HT.Spec

/-- ASCII white space (Infra). -/
def isCspWs (c : Char) : Bool := c = ' ' || c = '\t' || c = '\n' || c = '\r' || c.toNat = 12

/-- The pieces between the characters that are white space. -/
def pieces : Str → List Str
  | [] => [[]]
  | c :: s =>
    if isCspWs c then [] :: pieces s
    else match pieces s with
      | [] => [[c]]
      | w :: ws => (c :: w) :: ws

/-- Split on ASCII white space (Infra). -/
def words (s : Str) : List Str := (pieces s).filter (· ≠ [])

/-- One token of a policy: its first word in lower case is the name, the others are the value. Tokens that are empty or
not ASCII are skipped. -/
def cspDirective (t : Str) : Option (Str × List Str) :=
  if isAscii t then
    match words t with
    | [] => none
    | n :: vs => some (lower n, vs)
  else none

/-- A directive is added unless there is one of that name already. -/
def addDirective (p : List (Str × List Str)) (e : Str × List Str) : List (Str × List Str) :=
  if e.1 ∈ p.map (·.1) then p else p ++ [e]

/-- Parse a serialized policy, 2.2.1: the directive set. -/
def cspPolicy (s : Str) : List (Str × List Str) := ((split ';' s).filterMap cspDirective).foldl addDirective []

/-- Parse the policies of a header, 2.2.2: the values between commas, without those that have no directive. All of them
are enforced, each on its own. -/
def cspPolicies (v : Str) : List (List (Str × List Str)) := ((split ',' v).map cspPolicy).filter (· ≠ [])

/-- The calls ask for the directive `d` with the value `vs`: all sources given to the method of that name, in the order of
the calls, or no sources for the two directives without. -/
def Wanted (ops : List CspOp) (d : Str) (vs : List Str) : Prop :=
  ((∃ m s, CspOp.add m s ∈ ops ∧ m.directive = d) ∧ vs = (sourcesFor d ops).flatMap words) ∨
  (d = s!!"block-all-mixed-content" ∧ CspOp.blockAllMixedContent ∈ ops ∧ vs = []) ∨
  (d = s!!"upgrade-insecure-requests" ∧ CspOp.upgradeInsecureRequests ∈ ops ∧ vs = [])

/-- ASCII without the characters that separate directives and policies. -/
def Contained (s : Str) : Prop := ∀ c ∈ s, isAsciiC c = true ∧ c ≠ ';' ∧ c ≠ ','

/-- Every source is contained, and no endpoints are reported to. -/
def PlainOps (ops : List CspOp) : Prop :=
  (∀ m s, CspOp.add m s ∈ ops → Contained s) ∧ ∀ es, CspOp.reportTo es ∉ ops

/-- The calls name the directive. -/
def Named (ops : List CspOp) (d : Str) : Prop := ∃ m s, CspOp.add m s ∈ ops ∧ m.directive = d

/-- The directive of the default policy stands although the calls may ask for another value: for scripts unless the
sources asked for come before those of the default in the order of strings, for objects unless there is a call. -/
def DefaultStands (ops : List CspOp) (d : Str) : Prop :=
  (d = s!!"script-src" ∧ ¬ (Named ops d ∧ join s!!" " (sourcesFor d ops) < s!!"'self'; object-src 'self'")) ∨
  (d = s!!"object-src" ∧ ¬ Named ops d)

end HT.Spec
