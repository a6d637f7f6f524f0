import Verif.Model.Lists
import Mathlib.Data.List.Sort

/-!
Model of `src/security/mod.rs`, `src/security/csp.rs` and `src/security/strict_transport_security.rs`.
(`src/security/timing_allow_origin.rs` is in `Verif/Model/Lists.lean`.)
-/

namespace HT

/-! ### Strict-Transport-Security -/

/-- `StrictTransportSecurity`, src/security/strict_transport_security.rs:14-18. -/
structure Hsts where
  maxAge : Duration
  includeSubdomains : Bool
  preload : Bool
  deriving DecidableEq, Repr

namespace Hsts

/-- `STRICT_TRANSPORT_SECURITY`, src/headers/constants.rs:157-158. -/
def NAME : HeaderName := s!!"strict-transport-security"

/-- `Default`, src/security/strict_transport_security.rs:24-30. -/
def default : Hsts := ⟨⟨31536000, 0⟩, false, true⟩

/-- `StrictTransportSecurity::new`, src/security/strict_transport_security.rs:35-41. -/
def new (d : Duration) : Hsts := ⟨d, false, false⟩

/-- `header_value`, src/security/strict_transport_security.rs:78-90. -/
def headerValue (p : Hsts) : HeaderValue :=
  let output := s!!"max-age=" ++ natStr 10 p.maxAge.secs
  let output := if p.includeSubdomains then output ++ s!!";includeSubdomains" else output
  if p.preload then output ++ s!!";preload" else output

/-- The loop of `from_headers`, src/security/strict_transport_security.rs:107-130, over the remaining
parts; `age`, `inc`, `pre` are the three local variables. -/
def loop (age : Option Duration) (inc pre : Bool) : List Str → Res (Option Duration × Bool × Bool)
  | [] => .ok (age, inc, pre)
  | s :: rest =>
    if trim s = s!!"includesubdomains" then loop age true pre rest
    else if trim s = s!!"preload" then loop age inc true rest
    else
      match splitOnce '=' (trim s) with
      | none => loop age inc pre rest
      | some (key, value) =>
        if key = s!!"max-age" then
          ((Res.ofOption 500 (parseUInt u64Max1 value)).status 400).bind fun secs =>
            loop (some ⟨secs, 0⟩) inc pre rest
        else loop age inc pre rest

/-- `from_headers` on the last value, src/security/strict_transport_security.rs:104-145. -/
def parse (v : HeaderValue) : Res Hsts :=
  (loop none false false (split ';' v)).bind fun (age, inc, pre) =>
    match age with
    | some d => .ok ⟨d, inc, pre⟩
    | none => .err 400

/-- `from_headers`, src/security/strict_transport_security.rs:96-146. -/
def fromHeaders (h : Headers) : Res (Option Hsts) := readLast h NAME parse

end Hsts

/-! ### Content-Security-Policy -/

/-- `Source`, src/security/csp.rs:12-37. -/
inductive Source where
  | sameOrigin | src | none | unsafeInline | data | mediastream | https | blob | filesystem
  | strictDynamic | unsafeEval | wildcard
  deriving DecidableEq, Repr

/-- `AsRef<str> for Source`, src/security/csp.rs:58-75. -/
def Source.asRef : Source → Str
  | .sameOrigin => s!!"'self'"
  | .src => s!!"'src'"
  | .none => s!!"'none'"
  | .unsafeInline => s!!"'unsafe-inline'"
  | .data => s!!"data:"
  | .mediastream => s!!"mediastream:"
  | .https => s!!"https:"
  | .blob => s!!"blob:"
  | .filesystem => s!!"filesystem:"
  | .strictDynamic => s!!"'strict-dynamic'"
  | .unsafeEval => s!!"'unsafe-eval'"
  | .wildcard => s!!"*"

/-- The methods which take a source, src/security/csp.rs:168-339. -/
inductive CspMethod where
  | baseUri | connectSrc | defaultSrc | fontSrc | formAction | frameAncestors | frameSrc | imgSrc
  | mediaSrc | objectSrc | pluginTypes | requireSriFor | reportUri | sandbox | scriptSrc | styleSrc
  | workerSrc
  deriving DecidableEq, Repr

/-- The name each of those methods passes to `insert_directive`, src/security/csp.rs:168-339. -/
def CspMethod.directive : CspMethod → Str
  | .baseUri => s!!"base-uri"
  | .connectSrc => s!!"connect-src"
  | .defaultSrc => s!!"default-src"
  | .fontSrc => s!!"font-src"
  | .formAction => s!!"form-action"
  | .frameAncestors => s!!"frame-ancestors"
  | .frameSrc => s!!"frame-src"
  | .imgSrc => s!!"img-src"
  | .mediaSrc => s!!"media-src"
  | .objectSrc => s!!"object-src"
  | .pluginTypes => s!!"plugin-types"
  | .requireSriFor => s!!"require-sri-for"
  | .reportUri => s!!"report-uri"
  | .sandbox => s!!"sandbox"
  | .scriptSrc => s!!"script-src"
  | .styleSrc => s!!"style-src"
  | .workerSrc => s!!"worker-src"

/-- `ContentSecurityPolicy`, src/security/csp.rs:132-137. -/
structure Csp where
  policy : List Str
  reportOnly : Bool
  directives : FMap Str (List Str)

/-- `Vec<String>::sort`, std: the order of strings is the order of their UTF-8 bytes, which is the
lexicographic order of the code points. Equal strings are the same, so any sorting algorithm gives the
same result. -/
def sortStrs (xs : List Str) : List Str := xs.insertionSort (· ≤ ·)

namespace Csp

/-- `Default`, src/security/csp.rs:139-149. -/
def default : Csp := ⟨[s!!"script-src 'self'; object-src 'self'"], false, []⟩

/-- `ContentSecurityPolicy::new`, src/security/csp.rs:153-159. -/
def new : Csp := ⟨[], false, []⟩

/-- `insert_directive`, src/security/csp.rs:161-166. -/
def insertDirective (c : Csp) (directive source : Str) : Csp :=
  { c with directives :=
      FMap.set c.directives directive ((FMap.get c.directives directive).getD [] ++ [source]) }

/-- `block_all_mixed_content`, src/security/csp.rs:179-183. -/
def blockAllMixedContent (c : Csp) : Csp := { c with policy := c.policy ++ [s!!"block-all-mixed-content"] }

/-- `upgrade_insecure_requests`, src/security/csp.rs:327-331. -/
def upgradeInsecureRequests (c : Csp) : Csp :=
  { c with policy := c.policy ++ [s!!"upgrade-insecure-requests"] }

/-- `report_to`, src/security/csp.rs:285-298 (feature `serde`): the JSON text of each endpoint, `none`
when `serde_json` fails, in which case the endpoint is skipped. The JSON text is a parameter. -/
def reportTo (c : Csp) (endpoints : List (Option Str)) : Csp :=
  { c with policy := c.policy ++ endpoints.filterMap fun e => e.map fun j => s!!"report-to " ++ j }

/-- `report_only`, src/security/csp.rs:342-345. -/
def setReportOnly (c : Csp) : Csp := { c with reportOnly := true }

/-- The loop of `value`, src/security/csp.rs:349-353, over the entries in the map's visiting order. -/
def valueLoop (policy : List Str) : List (Str × List Str) → List Str
  | [] => policy
  | (directive, sources) :: rest =>
    valueLoop (sortStrs (policy ++ [directive ++ s!!" " ++ join s!!" " sources])) rest

/-- `value`, src/security/csp.rs:348-355; the policy is changed. -/
def value (c : Csp) : Csp × Str :=
  let policy := valueLoop c.policy c.directives
  ({ c with policy := policy }, join s!!"; " policy)

/-- The name chosen by `apply`, src/security/csp.rs:359-363. -/
def headerName (c : Csp) : Str :=
  if c.reportOnly then s!!"Content-Security-Policy-Report-Only" else s!!"Content-Security-Policy"

/-- `apply`, src/security/csp.rs:358-365: `unwrap` panics when the insert is refused. -/
def apply (c : Csp) (h : Headers) : Csp × Res Headers :=
  let (c', v) := c.value
  let r := Headers.insertStr h c.headerName (.str v)
  (c', match r.2 with | .ok _ => .ok r.1 | _ => .panic)

end Csp

/-- The calls that build a policy. -/
inductive CspOp where
  | add (m : CspMethod) (source : Str)
  | blockAllMixedContent
  | upgradeInsecureRequests
  | reportTo (endpoints : List (Option Str))
  | reportOnly

/-- One building call. -/
def CspOp.step (c : Csp) : CspOp → Csp
  | .add m s => c.insertDirective m.directive s
  | .blockAllMixedContent => c.blockAllMixedContent
  | .upgradeInsecureRequests => c.upgradeInsecureRequests
  | .reportTo es => c.reportTo es
  | .reportOnly => c.setReportOnly

/-- A sequence of building calls. -/
def CspOp.run (c : Csp) (ops : List CspOp) : Csp := ops.foldl CspOp.step c

/-! ### Protection functions of src/security/mod.rs -/

/-- `FrameOptions`, src/security/mod.rs:76-81. -/
inductive FrameOptions where
  | sameOrigin | deny
  deriving DecidableEq, Repr

/-- `ReferrerOptions`, src/security/mod.rs:202-219. -/
inductive ReferrerOptions where
  | noReferrer | noReferrerDowngrade | sameOrigin | origin | strictOrigin | crossOrigin
  | strictCrossOrigin | unsafeUrl
  deriving DecidableEq, Repr

namespace Security

/-- `headers.as_mut().insert(name, value).unwrap()`. -/
def put (h : Headers) (name value : Str) : Res Headers :=
  let r := Headers.insertStr h name (.str value)
  match r.2 with
  | .ok _ => .ok r.1
  | _ => .panic

/-- `dns_prefetch_control`, src/security/mod.rs:66-72. -/
def dnsPrefetchControl (h : Headers) : Res Headers := put h s!!"X-DNS-Prefetch-Control" s!!"on"

/-- `frameguard`, src/security/mod.rs:96-103. -/
def frameguard (h : Headers) (g : Option FrameOptions) : Res Headers :=
  put h s!!"X-Frame-Options"
    (match g with
      | none => s!!"sameorigin"
      | some .sameOrigin => s!!"sameorigin"
      | some .deny => s!!"deny")

/-- `powered_by`, src/security/mod.rs:120-131: the name is made with `from_lowercase_str`, which
does not lower the letters. -/
def poweredBy (h : Headers) (value : Option HeaderValue) : Res Headers :=
  let name := HeaderName.fromLowercaseStr s!!"X-Powered-By"
  match value with
  | some v =>
    let r := Headers.insert h name (.value v)
    match r.2 with
    | .ok _ => .ok r.1
    | _ => .panic
  | none => .ok (Headers.remove h name).1

/-- `hsts`, src/security/mod.rs:149-155. -/
def hsts (h : Headers) : Res Headers := put h s!!"Strict-Transport-Security" s!!"max-age=5184000"

/-- `nosniff`, src/security/mod.rs:171-177. -/
def nosniff (h : Headers) : Res Headers := put h s!!"X-Content-Type-Options" s!!"nosniff"

/-- `xss_filter`, src/security/mod.rs:192-198. -/
def xssFilter (h : Headers) : Res Headers := put h s!!"X-XSS-Protection" s!!"1; mode=block"

/-- `referrer_policy`, src/security/mod.rs:239-255: appends. -/
def referrerPolicy (h : Headers) (referrer : Option ReferrerOptions) : Res Headers :=
  let policy := match referrer with
    | none => s!!"no-referrer"
    | some .noReferrer => s!!"no-referrer"
    | some .noReferrerDowngrade => s!!"no-referrer-when-downgrade"
    | some .sameOrigin => s!!"same-origin"
    | some .origin => s!!"origin"
    | some .strictOrigin => s!!"strict-origin"
    | some .crossOrigin => s!!"origin-when-cross-origin"
    | some .strictCrossOrigin => s!!"strict-origin-when-cross-origin"
    | some .unsafeUrl => s!!"unsafe-url"
  let r := Headers.appendStr h s!!"Referrer-Policy" (.str policy)
  match r.2 with
  | .ok _ => .ok r.1
  | _ => .panic

/-- `default`, src/security/mod.rs:44-51. -/
def default (h : Headers) : Res Headers :=
  (dnsPrefetchControl h).bind fun h =>
  (nosniff h).bind fun h =>
  (frameguard h none).bind fun h =>
  (poweredBy h none).bind fun h =>
  (hsts h).bind fun h =>
  xssFilter h

end Security
end HT
