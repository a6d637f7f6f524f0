import Verif.Spec.Num
import Verif.Spec.Headers
import Verif.Model.Security
import Mathlib.Data.List.Dedup

/-! What the security headers should say, stated without the code's loops. -/

namespace HT.Spec

/-- The items of a semicolon-separated value, without surrounding whitespace. -/
def semiItems (v : Str) : List Str := (split ';' v).map trim

/-- The texts given for `max-age` in a Strict-Transport-Security value, in order. -/
def maxAges (v : Str) : List Str := (semiItems v).filterMap (stripPrefix s!!"max-age=")

/-- The text is the decimal numeral of a 64-bit number. -/
def IsU64 (t : Str) : Prop := ∃ n, Numeral t n ∧ n < 2 ^ 64

/-- What a Strict-Transport-Security value says: the last `max-age` (all of them numerals), and
whether the two flags occur. -/
def HstsSays (v : Str) (p : Hsts) : Prop :=
  (∀ t ∈ maxAges v, IsU64 t) ∧
  (∃ t, (maxAges v).getLast? = some t ∧ Numeral t p.maxAge.secs) ∧
  p.maxAge.nanos = 0 ∧
  (p.includeSubdomains = true ↔ s!!"includesubdomains" ∈ semiItems v) ∧
  (p.preload = true ↔ s!!"preload" ∈ semiItems v)

/-! Content-Security-Policy. -/

/-- The sources given for directive `d`, in the order of the calls. -/
def sourcesFor (d : Str) (ops : List CspOp) : List Str :=
  ops.filterMap fun
    | .add m s => if m.directive = d then some s else none
    | _ => none

/-- The directives mentioned by the calls. -/
def mentioned (ops : List CspOp) : List Str :=
  ops.filterMap fun
    | .add m _ => some m.directive
    | _ => none

/-- The entries that take no sources, in the order of the calls. -/
def plainEntries (ops : List CspOp) : List Str :=
  ops.flatMap fun
    | .blockAllMixedContent => [s!!"block-all-mixed-content"]
    | .upgradeInsecureRequests => [s!!"upgrade-insecure-requests"]
    | .reportTo es => es.filterMap fun e => e.map fun j => s!!"report-to " ++ j
    | _ => []

/-- The entry for one directive. -/
def directiveEntry (ops : List CspOp) (d : Str) : Str := d ++ s!!" " ++ join s!!" " (sourcesFor d ops)

/-- Every entry of the policy once, in no particular order. -/
def entries (ops : List CspOp) : List Str :=
  plainEntries ops ++ (mentioned ops).dedup.map (directiveEntry ops)

/-- The call asks for report-only mode. -/
def asksReportOnly : CspOp → Bool
  | .reportOnly => true
  | _ => false

/-! Default protections. -/

/-- The headers the default protections are documented to set. -/
def protections : List (Str × Str) :=
  [(s!!"X-DNS-Prefetch-Control", s!!"on"),
   (s!!"X-Content-Type-Options", s!!"nosniff"),
   (s!!"X-Frame-Options", s!!"sameorigin"),
   (s!!"Strict-Transport-Security", s!!"max-age=5184000"),
   (s!!"X-XSS-Protection", s!!"1; mode=block")]

/-- What each referrer option is documented to send (src/security/mod.rs:200-219). -/
def documentedReferrer : ReferrerOptions → Str
  | .noReferrer => s!!"no-referrer"
  | .noReferrerDowngrade => s!!"no-referrer-when-downgrade"
  | .sameOrigin => s!!"same-origin"
  | .origin => s!!"origin"
  | .strictOrigin => s!!"strict-origin"
  | .crossOrigin => s!!"origin-when-cross-origin"
  | .strictCrossOrigin => s!!"strict-origin-when-cross-origin"
  | .unsafeUrl => s!!"unsafe-url"

/-- `h'` is `h` with the one name `name` set to `vs`, as seen through lookups by text. -/
def OnlySets (h h' : Headers) (name : Str) (vs : List Str) : Prop :=
  ∀ n, Ascii n → h'.getStr n = if sameName name n then .ok (some vs) else h.getStr n

end HT.Spec
