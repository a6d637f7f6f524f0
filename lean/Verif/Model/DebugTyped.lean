import Verif.Model.Debug
import Verif.Model.Lists
import Verif.Model.Auth
import Verif.Model.Trace
import Verif.Model.Forwarded
import Verif.Model.Mime
import Verif.Model.Content
import Verif.Model.Security
import Verif.Model.ServerTiming
import Verif.Model.Extensions

/-!
`{:?}` of the typed headers, of media types, extensions and connections. Where the implementation is derived, the text is
that of `derive(Debug)`; only the plain form is modelled, not `{:#?}`.
-/

namespace HT

/-- `Formatter::debug_struct` (std) with the fields given by name and printed value. -/
def debugStruct (name : Str) (fields : List (Str × Str)) : Str :=
  match fields with
  | [] => name
  | fs => name ++ s!!" { " ++ join s!!", " (fs.map fun e => e.1 ++ s!!": " ++ e.2) ++ s!!" }"

/-- `Formatter::debug_tuple` (std) with one field. -/
def debugTuple (name v : Str) : Str := name ++ s!!"(" ++ v ++ s!!")"

/-- `Debug for Option` (derived in std). -/
def debugOpt {α : Type} (f : α → Str) : Option α → Str
  | none => s!!"None"
  | some a => debugTuple s!!"Some" (f a)

/-- `Debug for bool` (std). -/
def debugBool : Bool → Str
  | true => s!!"true"
  | false => s!!"false"

/-- Without its zeros at the end. -/
def trimZeros (s : Str) : Str := (s.reverse.dropWhile (· == '0')).reverse

/-- `fmt_decimal` of `Debug for Duration` (std) without precision: the whole part and the `k` digits after the point
without the zeros at the end. -/
def debugDecimal (int frac k : Nat) (unit : Str) : Str :=
  dec int ++ (if frac = 0 then [] else '.' :: trimZeros (zpad k (dec frac))) ++ unit

/-- `Debug for Duration` (std). -/
def Duration.debug (d : Duration) : Str :=
  if 0 < d.secs then debugDecimal d.secs d.nanos 9 s!!"s"
  else if 1000000 ≤ d.nanos then debugDecimal (d.nanos / 1000000) (d.nanos % 1000000) 6 s!!"ms"
  else if 1000 ≤ d.nanos then debugDecimal (d.nanos / 1000) (d.nanos % 1000) 3 s!!"µs"
  else debugDecimal d.nanos 0 1 s!!"ns"

/-- `Debug for ETag`, derived, src/conditional/etag.rs:33-39. -/
def ETag.debug (pr : Char → Bool) : ETag → Str
  | .strong s => debugTuple s!!"Strong" (debugStr pr s)
  | .weak s => debugTuple s!!"Weak" (debugStr pr s)

/-- `Debug for ClearDirective`, derived, src/cache/clear_site_data/directive.rs:7-28. -/
def ClearDirective.debug : ClearDirective → Str
  | .cache => s!!"Cache"
  | .cookies => s!!"Cookies"
  | .storage => s!!"Storage"
  | .executionContexts => s!!"ExecutionContexts"

/-- `Debug for Method`, derived, src/method.rs:13-338. -/
def Method.debug : Method → Str
  | .acl => s!!"Acl"
  | .baselineControl => s!!"BaselineControl"
  | .bind => s!!"Bind"
  | .checkin => s!!"Checkin"
  | .checkout => s!!"Checkout"
  | .connect => s!!"Connect"
  | .copy => s!!"Copy"
  | .delete => s!!"Delete"
  | .get => s!!"Get"
  | .head => s!!"Head"
  | .label => s!!"Label"
  | .link => s!!"Link"
  | .lock => s!!"Lock"
  | .merge => s!!"Merge"
  | .mkActivity => s!!"MkActivity"
  | .mkCalendar => s!!"MkCalendar"
  | .mkCol => s!!"MkCol"
  | .mkRedirectRef => s!!"MkRedirectRef"
  | .mkWorkspace => s!!"MkWorkspace"
  | .move => s!!"Move"
  | .options => s!!"Options"
  | .orderPatch => s!!"OrderPatch"
  | .patch => s!!"Patch"
  | .post => s!!"Post"
  | .pri => s!!"Pri"
  | .propFind => s!!"PropFind"
  | .propPatch => s!!"PropPatch"
  | .put => s!!"Put"
  | .rebind => s!!"Rebind"
  | .report => s!!"Report"
  | .search => s!!"Search"
  | .trace => s!!"Trace"
  | .unbind => s!!"Unbind"
  | .uncheckout => s!!"Uncheckout"
  | .unlink => s!!"Unlink"
  | .unlock => s!!"Unlock"
  | .update => s!!"Update"
  | .updateRedirectRef => s!!"UpdateRedirectRef"
  | .versionControl => s!!"VersionControl"

/-- `Debug for CacheDirective`, derived, src/cache/cache_control/cache_directive.rs:8-44. -/
def CacheDirective.debug : CacheDirective → Str
  | .immutable => s!!"Immutable"
  | .maxAge d => debugTuple s!!"MaxAge" d.debug
  | .maxStale d => debugTuple s!!"MaxStale" (debugOpt Duration.debug d)
  | .minFresh d => debugTuple s!!"MinFresh" d.debug
  | .mustRevalidate => s!!"MustRevalidate"
  | .noCache => s!!"NoCache"
  | .noStore => s!!"NoStore"
  | .noTransform => s!!"NoTransform"
  | .onlyIfCached => s!!"OnlyIfCached"
  | .priv => s!!"Private"
  | .proxyRevalidate => s!!"ProxyRevalidate"
  | .publ => s!!"Public"
  | .sMaxAge d => debugTuple s!!"SMaxAge" d.debug
  | .staleIfError d => debugTuple s!!"StaleIfError" d.debug
  | .staleWhileRevalidate d => debugTuple s!!"StaleWhileRevalidate" d.debug

/-- `Debug` of the lists with a wildcard: `IfMatch`, src/conditional/if_match.rs:220-228; `IfNoneMatch`,
if_none_match.rs:226-234; `Vary`, vary.rs:227-235; `ClearSiteData`, src/cache/clear_site_data/mod.rs:204-212;
`TimingAllowOrigin`, src/security/timing_allow_origin.rs:248-256. `entry` prints one entry. -/
def StarList.debug {α : Type} (entry : α → Str) (l : StarList α) : Str := debugList (l.entries.map entry)

/-- `Debug` of `Accept`, src/content/accept.rs:279-287; `AcceptEncoding`, src/content/accept_encoding.rs:272-280; `TE`,
src/transfer/te.rs:270-278. `entry` prints one proposal. -/
def AcceptList.debug {α : Type} (entry : Proposal α → Str) (l : AcceptList α) : Str := debugList (l.entries.map entry)

/-- `Debug for Allow`, src/server/allow.rs:165-173, in one visiting order of the set. -/
def Allow.debug (ms : List Method) : Str := debugList (ms.map Method.debug)

/-- `Debug for CacheControl`, src/cache/cache_control/cache_control.rs:192-200. -/
def CacheControl.debug (ds : List CacheDirective) : Str := debugList (ds.map CacheDirective.debug)

/-- `Debug for Metric`, derived, src/trace/server_timing/metric.rs:17-22. -/
def Metric.debug (pr : Char → Bool) (m : Metric) : Str :=
  debugStruct s!!"Metric" [(s!!"name", debugStr pr m.name), (s!!"dur", debugOpt Duration.debug m.dur),
    (s!!"desc", debugOpt (debugStr pr) m.desc)]

/-- `Debug for ServerTiming`, derived, src/trace/server_timing/mod.rs:63-66. -/
def ServerTiming.debug (pr : Char → Bool) (ms : List Metric) : Str :=
  debugStruct s!!"ServerTiming" [(s!!"timings", debugList (ms.map (Metric.debug pr)))]

/-- `Debug for AuthenticationScheme`, derived, src/auth/authentication_scheme.rs:7-30. -/
def Scheme.debug : Scheme → Str
  | .basic => s!!"Basic"
  | .bearer => s!!"Bearer"
  | .digest => s!!"Digest"
  | .hoba => s!!"Hoba"
  | .mutual => s!!"Mutual"
  | .negotiate => s!!"Negotiate"
  | .oauth => s!!"OAuth"
  | .scramSha1 => s!!"ScramSha1"
  | .scramSha256 => s!!"ScramSha256"
  | .vapid => s!!"Vapid"

/-- `Debug for Authorization`, derived, src/auth/authorization.rs:33-37. -/
def Authorization.debug (pr : Char → Bool) (a : Authorization) : Str :=
  debugStruct s!!"Authorization" [(s!!"scheme", a.scheme.debug), (s!!"credentials", debugStr pr a.credentials)]

/-- `Debug for BasicAuth`, derived, src/auth/basic_auth.rs:37-41. -/
def BasicAuth.debug (pr : Char → Bool) (a : BasicAuth) : Str :=
  debugStruct s!!"BasicAuth" [(s!!"username", debugStr pr a.username), (s!!"password", debugStr pr a.password)]

/-- `Debug for WwwAuthenticate`, derived, src/auth/www_authenticate.rs:39-43. -/
def WwwAuthenticate.debug (pr : Char → Bool) (a : WwwAuthenticate) : Str :=
  debugStruct s!!"WwwAuthenticate" [(s!!"scheme", a.scheme.debug), (s!!"realm", debugStr pr a.realm)]

/-- `Debug for StrictTransportSecurity`, derived, src/security/strict_transport_security.rs:12-18. -/
def Hsts.debug (h : Hsts) : Str :=
  debugStruct s!!"StrictTransportSecurity" [(s!!"max_age", h.maxAge.debug),
    (s!!"include_subdomains", debugBool h.includeSubdomains), (s!!"preload", debugBool h.preload)]

/-- `Debug for Age`, derived, src/cache/age.rs:32-35. -/
def Age.debug (d : Duration) : Str := debugStruct s!!"Age" [(s!!"dur", d.debug)]

/-- `Debug for ContentLength`, derived, src/content/content_length.rs:28-31. -/
def ContentLength.debug (n : Nat) : Str := debugStruct s!!"ContentLength" [(s!!"length", dec n)]

/-- `Debug for TraceContext`, derived, src/trace/trace_context.rs:37-44. -/
def TraceContext.debug (c : TraceContext) : Str :=
  debugStruct s!!"TraceContext" [(s!!"id", dec c.id), (s!!"version", dec c.version), (s!!"trace_id", dec c.traceId),
    (s!!"parent_id", debugOpt dec c.parentId), (s!!"flags", dec c.flags)]

/-- `Debug for Forwarded`, derived, src/proxies/forwarded.rs:15-21. -/
def Forwarded.debug (pr : Char → Bool) (f : Forwarded) : Str :=
  debugStruct s!!"Forwarded" [(s!!"by", debugOpt (debugStr pr) f.by'),
    (s!!"forwarded_for", debugList (f.forwardedFor.map (debugStr pr))), (s!!"host", debugOpt (debugStr pr) f.host),
    (s!!"proto", debugOpt (debugStr pr) f.proto)]

/-- `Debug for (ParamName, ParamValue)`, derived and std, src/mime/mod.rs:211-212, 246-247. -/
def Mime.debugParam (pr : Char → Bool) (p : Str × Str) : Str :=
  s!!"(" ++ debugTuple s!!"ParamName" (debugStr pr p.1) ++ s!!", " ++ debugTuple s!!"ParamValue" (debugStr pr p.2) ++ s!!")"

/-- `Debug for Mime`, derived, src/mime/mod.rs:31-40. -/
def Mime.debug (pr : Char → Bool) (m : Mime) : Str :=
  debugStruct s!!"Mime" [(s!!"essence", debugStr pr m.essence), (s!!"basetype", debugStr pr m.basetype),
    (s!!"subtype", debugStr pr m.subtype), (s!!"is_utf8", debugBool m.isUtf8),
    (s!!"params", debugList (m.params.map (Mime.debugParam pr)))]

/-- `Debug for ContentType`, derived, src/content/content_type.rs:35-38. -/
def ContentType.debug (pr : Char → Bool) (m : Mime) : Str := debugStruct s!!"ContentType" [(s!!"media_type", m.debug pr)]

/-- `Debug for content::Encoding`, derived, src/content/encoding.rs:6-18, to which `ContentEncoding` delegates,
src/content/content_encoding.rs:132-136. -/
def Encoding.debug : Encoding → Str
  | .gzip => s!!"Gzip"
  | .deflate => s!!"Deflate"
  | .brotli => s!!"Brotli"
  | .zstd => s!!"Zstd"
  | .identity => s!!"Identity"

/-- `Debug for transfer::Encoding`, derived, src/transfer/encoding.rs:8-22, to which `TransferEncoding` delegates,
src/transfer/transfer_encoding.rs:129-133. -/
def TEncoding.debug : TEncoding → Str
  | .chunked => s!!"Chunked"
  | .gzip => s!!"Gzip"
  | .deflate => s!!"Deflate"
  | .brotli => s!!"Brotli"
  | .zstd => s!!"Zstd"
  | .identity => s!!"Identity"

/-- `Debug for Extensions`, src/extensions.rs:79-83. -/
def Extensions.debug {κ : Type} {T : κ → Type} (_e : Extensions T) : Str := debugStruct s!!"Extensions" []

end HT
