import Verif.Model.Simple
import Verif.Model.Method

/-!
Model of the comma-separated list headers: `src/cache/cache_control/*.rs`,
`src/cache/clear_site_data/*.rs`, `src/conditional/{etag,if_match,if_none_match,vary}.rs`,
`src/server/allow.rs`, `src/security/timing_allow_origin.rs`.
-/

namespace HT

/-- `for value in headers` over `&HeaderValues`, src/headers/header_values.rs:164-171 (the `Values`
iterator drained). -/
def HeaderValues.iter (vs : HeaderValues) : List HeaderValue := (Values.newValues vs).collect

/-- The parts visited by `for value in headers { for part in value.as_str().trim().split(',') {..} }`,
in order. A `?` inside leaves both loops, so the two loops are one pass over this list. -/
def trimmedParts (vs : HeaderValues) : List Str :=
  (HeaderValues.iter vs).flatMap fun v => split ',' (trim v)

/-- `for (n, x) in xs.iter().enumerate() { match n { 0 => write!(output, "{}", x), _ => write!(output,
", {}", x) } }` on the remaining items and the output so far; `first` is `n == 0`. -/
def writeLoop (output : Str) (first : Bool) : List Str → Str
  | [] => output
  | x :: xs => writeLoop (output ++ (if first then x else s!!", " ++ x)) false xs

/-- `if self.wildcard { match output.len() { 0 => write!(output, STAR), _ => write!(output, ", STAR") } }`. -/
def writeStar (star output : Str) (wildcard : Bool) : Str :=
  if wildcard then
    if byteLen output = 0 then output ++ star else output ++ (s!!", " ++ star)
  else output

/-- A list with a wildcard flag: `IfMatch`, `IfNoneMatch`, `Vary`, `ClearSiteData`, `TimingAllowOrigin`. -/
structure StarList (α : Type) where
  entries : List α
  wildcard : Bool
  deriving DecidableEq, Repr

/-- The loop of `from_headers` in `if_match.rs:61-73`, `if_none_match.rs:67-79`, `vary.rs:61-74`,
`clear_site_data/mod.rs:70-82` over the parts. -/
def starLoop {α : Type} (star : Str) (parse : Str → Res α) : List Str → StarList α → Res (StarList α)
  | [], acc => .ok acc
  | part :: parts, acc =>
    let part := trim part
    if part = star then starLoop star parse parts { acc with wildcard := true }
    else (parse part).bind fun e => starLoop star parse parts { acc with entries := acc.entries ++ [e] }

/-- `from_headers` of these types: absent gives `Ok(None)`. -/
def readStarList {α : Type} (name : HeaderName) (star : Str) (parse : Str → Res α) (h : Headers) :
    Res (Option (StarList α)) :=
  match h.get name with
  | none => .ok none
  | some vs => (starLoop star parse (trimmedParts vs) ⟨[], false⟩).map some

/-! ### Entity tags (src/conditional/etag.rs) -/

/-- `ETag`, src/conditional/etag.rs:33-39. -/
inductive ETag where
  | strong (s : Str)
  | weak (s : Str)
  deriving DecidableEq, Repr

namespace ETag

/-- `ETAG`, src/headers/constants.rs. -/
def name : HeaderName := s!!"etag"

/-- `str::strip_suffix('"')`. -/
def stripQuoteEnd (s : Str) : Option Str :=
  if s.getLast? = some '"' then some s.dropLast else none

/-- The byte test of src/conditional/etag.rs:100-102. All bytes of a non-ASCII character are `>= 0x80`,
so it can be read character by character. -/
def okChar (c : Char) : Bool :=
  c.toNat == 0x21 || (0x23 ≤ c.toNat && c.toNat ≤ 0x7E) || c.toNat ≥ 0x80

/-- `ETag::from_str`, src/conditional/etag.rs:80-112. -/
def fromStr (s : Str) : Res ETag :=
  let (isWeak, s) := match stripPrefix s!!"W/" s with
    | some s => (true, s)
    | none => (false, s)
  match (stripPrefix s!!"\"" s).bind stripQuoteEnd with
  | some s =>
    if s.all okChar then .ok (if isWeak then .weak s else .strong s) else .err 400
  | none => .err 400

/-- `Display`, src/conditional/etag.rs:126-133. -/
def display : ETag → Str
  | strong s => s!!"\"" ++ s ++ s!!"\""
  | weak s => s!!"W/\"" ++ s ++ s!!"\""

/-- `ETag::from_headers`, src/conditional/etag.rs:58-67. -/
def fromHeaders (h : Headers) : Res (Option ETag) := readLast h name fromStr

/-- `header_value`, src/conditional/etag.rs:119-123. -/
def value (e : ETag) : Res HeaderValue := .ok e.display

end ETag

/-! ### If-Match and If-None-Match -/
namespace IfMatch

/-- `IF_MATCH`, src/headers/constants.rs. -/
def name : HeaderName := s!!"if-match"
/-- `IF_NONE_MATCH`, src/headers/constants.rs. -/
def noneName : HeaderName := s!!"if-none-match"

/-- `IfMatch::from_headers`, src/conditional/if_match.rs:54-74. -/
def fromHeaders (h : Headers) : Res (Option (StarList ETag)) := readStarList name s!!"*" ETag.fromStr h

/-- `IfNoneMatch::from_headers`, src/conditional/if_none_match.rs:60-80. -/
def noneFromHeaders (h : Headers) : Res (Option (StarList ETag)) :=
  readStarList noneName s!!"*" ETag.fromStr h

/-- `header_value`, src/conditional/if_match.rs:110-128 and if_none_match.rs:116-134. -/
def value (l : StarList ETag) : Res HeaderValue :=
  .ok (writeStar s!!"*" (writeLoop [] true (l.entries.map ETag.display)) l.wildcard)

end IfMatch

/-! ### Vary -/
namespace Vary

/-- `VARY`, src/headers/constants.rs. -/
def name : HeaderName := s!!"vary"

/-- `Vary::from_headers`, src/conditional/vary.rs:54-75. -/
def fromHeaders (h : Headers) : Res (Option (StarList HeaderName)) :=
  readStarList name s!!"*" (fun p => HeaderName.fromStr (trim p)) h

/-- `header_value`, src/conditional/vary.rs:113-135: each name is first parsed as a header value
(`expect`). -/
def value (l : StarList HeaderName) : Res HeaderValue :=
  (Res.mapM (fun n => match HeaderValue.fromStr (HeaderName.asStr n) with
    | .ok v => .ok v
    | _ => .panic) l.entries).bind fun names =>
  .ok (writeStar s!!"*" (writeLoop [] true names) l.wildcard)

end Vary

/-! ### Clear-Site-Data -/

/-- `ClearDirective`, src/cache/clear_site_data/directive.rs:8-27. -/
inductive ClearDirective where
  | cache | cookies | storage | executionContexts
  deriving DecidableEq, Repr

namespace ClearDirective

/-- `as_str` and `Display`, src/cache/clear_site_data/directive.rs:31-45. -/
def asStr : ClearDirective → Str
  | cache => s!!"\"cache\""
  | cookies => s!!"\"cookies\""
  | storage => s!!"\"storage\""
  | executionContexts => s!!"\"executionContexts\""

/-- `FromStr`, src/cache/clear_site_data/directive.rs:50-58: `todo!()` panics. -/
def fromStr (s : Str) : Res ClearDirective :=
  if s = s!!"\"cache\"" then .ok cache
  else if s = s!!"\"cookies\"" then .ok cookies
  else if s = s!!"\"storage\"" then .ok storage
  else if s = s!!"\"executionContexts\"" then .ok executionContexts
  else .panic

end ClearDirective

namespace ClearSiteData

/-- `CLEAR_SITE_DATA`, src/headers/constants.rs. -/
def name : HeaderName := s!!"clear-site-data"

/-- `ClearSiteData::from_headers`, src/cache/clear_site_data/mod.rs:63-83. -/
def fromHeaders (h : Headers) : Res (Option (StarList ClearDirective)) :=
  readStarList name s!!"\"*\"" ClearDirective.fromStr h

/-- `header_value`, src/cache/clear_site_data/mod.rs:219-237. -/
def value (l : StarList ClearDirective) : Res HeaderValue :=
  .ok (writeStar s!!"\"*\"" (writeLoop [] true (l.entries.map ClearDirective.asStr)) l.wildcard)

end ClearSiteData

/-! ### Allow -/
namespace Allow

/-- `ALLOW`, src/headers/constants.rs. -/
def name : HeaderName := s!!"allow"

/-- `HashSet::insert`. The set is the list of its elements in one visiting order. -/
def insert (m : Method) (s : List Method) : List Method := if m ∈ s then s else s ++ [m]

/-- The loop of `Allow::from_headers`, src/server/allow.rs:59-64. -/
def loop : List Str → List Method → Res (List Method)
  | [], acc => .ok acc
  | part :: parts, acc => (Method.fromStr (trim part)).bind fun m => loop parts (insert m acc)

/-- `Allow::from_headers`, src/server/allow.rs:52-67. -/
def fromHeaders (h : Headers) : Res (Option (List Method)) :=
  match h.get name with
  | none => .ok none
  | some vs => (loop (trimmedParts vs) []).map some

/-- `header_value`, src/server/allow.rs:91-102, for one visiting order of the set. -/
def value (order : List Method) : Res HeaderValue := .ok (writeLoop [] true (order.map Method.asStr))

end Allow

/-! ### Timing-Allow-Origin -/
namespace TimingAllowOrigin

/-- `TIMING_ALLOW_ORIGIN`, src/headers/constants.rs. -/
def name : HeaderName := s!!"timing-allow-origin"

/-- The loop of `from_headers`, src/security/timing_allow_origin.rs:88-99. `parse` is `Url::parse`
(crate `url`), `none` for an error. -/
def loop {Url : Type} (parse : Str → Option Url) : List Str → StarList Url → Res (StarList Url)
  | [], acc => .ok acc
  | part :: parts, acc =>
    let origin := trimStart part
    if origin = s!!"*" then loop parse parts { acc with wildcard := true }
    else if origin = s!!"\"null\"" then loop parse parts acc
    else ((Res.ofOption 500 (parse origin)).status 400).bind fun u =>
      loop parse parts { acc with entries := acc.entries ++ [u] }

/-- `TimingAllowOrigin::from_headers`, src/security/timing_allow_origin.rs:80-102: the values are not
trimmed before splitting. -/
def fromHeaders {Url : Type} (parse : Str → Option Url) (h : Headers) : Res (Option (StarList Url)) :=
  match h.get name with
  | none => .ok none
  | some vs =>
    (loop parse ((HeaderValues.iter vs).flatMap fun v => split ',' v) ⟨[], false⟩).map some

/-- `header_value`, src/security/timing_allow_origin.rs:138-156; `display` is `Display for Url`. -/
def value {Url : Type} (display : Url → Str) (l : StarList Url) : Res HeaderValue :=
  .ok (writeStar s!!"*" (writeLoop [] true (l.entries.map display)) l.wildcard)

end TimingAllowOrigin

/-! ### Cache-Control -/

/-- `CacheDirective`, src/cache/cache_control/cache_directive.rs:9-44. -/
inductive CacheDirective where
  | immutable
  | maxAge (d : Duration)
  | maxStale (d : Option Duration)
  | minFresh (d : Duration)
  | mustRevalidate
  | noCache
  | noStore
  | noTransform
  | onlyIfCached
  | priv
  | proxyRevalidate
  | publ
  | sMaxAge (d : Duration)
  | staleIfError (d : Duration)
  | staleWhileRevalidate (d : Duration)
  deriving DecidableEq, Repr

namespace CacheDirective

/-- `valid_in_req`, src/cache/cache_control/cache_directive.rs:48-54. -/
def validInReq : CacheDirective → Bool
  | maxAge _ | maxStale _ | minFresh _ | noCache | noStore | noTransform | onlyIfCached => true
  | _ => false

/-- `valid_in_res`, src/cache/cache_control/cache_directive.rs:57-73. -/
def validInRes : CacheDirective → Bool
  | mustRevalidate | noCache | noStore | noTransform | publ | priv | proxyRevalidate | maxAge _
  | sMaxAge _ | staleIfError _ | staleWhileRevalidate _ => true
  | _ => false

/-- `.parse::<u64>().status(400)?` then `Duration::new(dur, 0)`. -/
def parseDur (s : Str) : Res Duration :=
  ((Res.ofOption 500 (parseUInt u64Max1 s)).status 400).map fun n => ⟨n, 0⟩

/-- The closure `get_dur`, src/cache/cache_control/cache_directive.rs:95-99, on the parts after the
name. -/
def getDur (parts : List Str) : Res Duration :=
  (Res.ofOption 400 parts.head?).bind parseDur

/-- `CacheDirective::from_str`, src/cache/cache_control/cache_directive.rs:81-127. `to_lowercase` is
modelled by ASCII lowercasing: header values are ASCII, where both agree. -/
def fromStr (s : Str) : Res (Option CacheDirective) :=
  let s := trim s
  if s = [] then .ok none else
  match split '=' (lower s) with
  | [] => .panic
  | next :: parts =>
    if next = s!!"immutable" then .ok (some immutable)
    else if next = s!!"no-cache" then .ok (some noCache)
    else if next = s!!"no-store" then .ok (some noStore)
    else if next = s!!"no-transform" then .ok (some noTransform)
    else if next = s!!"only-if-cached" then .ok (some onlyIfCached)
    else if next = s!!"must-revalidate" then .ok (some mustRevalidate)
    else if next = s!!"public" then .ok (some publ)
    else if next = s!!"private" then .ok (some priv)
    else if next = s!!"proxy-revalidate" then .ok (some proxyRevalidate)
    else if next = s!!"max-age" then (getDur parts).map fun d => some (maxAge d)
    else if next = s!!"max-stale" then
      match parts with
      | secs :: _ => (parseDur secs).map fun d => some (maxStale (some d))
      | [] => .ok (some (maxStale none))
    else if next = s!!"min-fresh" then (getDur parts).map fun d => some (minFresh d)
    else if next = s!!"s-maxage" then (getDur parts).map fun d => some (sMaxAge d)
    else if next = s!!"stale-if-error" then (getDur parts).map fun d => some (staleIfError d)
    else if next = s!!"stale-while-revalidate" then (getDur parts).map fun d => some (staleWhileRevalidate d)
    else .ok none

/-- `From<CacheDirective> for HeaderValue`, src/cache/cache_control/cache_directive.rs:130-156. -/
def display : CacheDirective → Str
  | immutable => s!!"immutable"
  | maxAge d => s!!"max-age=" ++ dec d.secs
  | maxStale (some d) => s!!"max-stale=" ++ dec d.secs
  | maxStale none => s!!"max-stale"
  | minFresh d => s!!"min-fresh=" ++ dec d.secs
  | mustRevalidate => s!!"must-revalidate"
  | noCache => s!!"no-cache"
  | noStore => s!!"no-store"
  | noTransform => s!!"no-transform"
  | onlyIfCached => s!!"only-if-cached"
  | priv => s!!"private"
  | proxyRevalidate => s!!"proxy-revalidate"
  | publ => s!!"public"
  | sMaxAge d => s!!"s-max-age=" ++ dec d.secs
  | staleIfError d => s!!"stale-if-error=" ++ dec d.secs
  | staleWhileRevalidate d => s!!"stale-while-revalidate=" ++ dec d.secs

end CacheDirective

namespace CacheControl

/-- `CACHE_CONTROL`, src/headers/constants.rs. -/
def name : HeaderName := s!!"cache-control"

/-- The loop of `CacheControl::from_headers`, src/cache/cache_control/cache_control.rs:52-60. -/
def loop : List Str → List CacheDirective → Res (List CacheDirective)
  | [], acc => .ok acc
  | part :: parts, acc =>
    (CacheDirective.fromStr part).bind fun
      | some e => loop parts (acc ++ [e])
      | none => loop parts acc

/-- `CacheControl::from_headers`, src/cache/cache_control/cache_control.rs:45-63. -/
def fromHeaders (h : Headers) : Res (Option (List CacheDirective)) :=
  match h.get name with
  | none => .ok none
  | some vs => (loop (trimmedParts vs) []).map some

/-- `header_value`, src/cache/cache_control/cache_control.rs:88-100. -/
def value (ds : List CacheDirective) : Res HeaderValue :=
  .ok (writeLoop [] true (ds.map CacheDirective.display))

end CacheControl

end HT
