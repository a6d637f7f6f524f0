import Verif.Conform.Basic
import Verif.Model.Debug
import Verif.Model.Error
import Verif.Model.Whole

/-!
Tests of src/headers, src/conditional, src/utils, src/security, src/status.rs, src/extensions.rs, src/request.rs,
src/response.rs and tests/ about the model; see `Verif/Conform/Basic.lean`. The tests of tests/mime.rs are left out: they are
under `cfg(features = "fs")`, which is never set.
-/

namespace HT.Conform

set_option synthInstance.maxSize 1000

/-! src/headers -/

/-- Every character of these tests is printed as it is. -/
def plain (_ : Char) : Bool := true

/-- Texts inserted or appended in order, no call failing. -/
def filled (kvs : List (Bool × Str × Str)) : Headers :=
  kvs.foldl (fun h kv => if kv.1 then (h.appendStr kv.2.1 (.str kv.2.2)).1 else (h.insertStr kv.2.1 (.str kv.2.2)).1) []

example : HeaderName.fromStr s!!"hello" = .ok (HeaderName.fromLowercaseStr s!!"hello") := by decide +kernel
example : HeaderName.eqStr (HeaderName.fromLowercaseStr s!!"hello") s!!"hello" = true ∧
    HeaderName.eqStr (HeaderName.fromLowercaseStr s!!"hello") s!!"Hello" = true := by decide +kernel
example : (HeaderName.fromStr s!!"hello").map (HeaderName.debug plain) = .ok s!!"\"hello\"" := by decide +kernel
example : (HeaderValue.fromStr s!!"foo0").map (HeaderValue.debug plain) = .ok s!!"\"foo0\"" := by decide +kernel
example : HeaderValues.debug plain [s!!"foo0"] = s!!"\"foo0\"" := by decide +kernel
example : HeaderValues.debug plain [s!!"foo0", s!!"foo1"] = s!!"[\"foo0\", \"foo1\"]" := by decide +kernel
example : ((filled [(true, s!!"hello", s!!"foo0"), (true, s!!"hello", s!!"foo1"), (true, s!!"hello", s!!"foo2")]).index
    (HeaderName.fromLowercaseStr s!!"hello")).map (HeaderValues.eqSlice · [s!!"foo0", s!!"foo1", s!!"foo2"]) = .ok true := by
  decide +kernel
example : ((filled [(false, s!!"hello", s!!"foo0")]).indexStr s!!"hello").map (HeaderValues.eqStr · s!!"foo0") = .ok true ∧
    ((filled [(false, s!!"hello", s!!"foo0")]).getStr s!!"hello").map (·.map (HeaderValues.eqStr · s!!"foo0")) =
      .ok (some true) := by decide +kernel
example : (filled [(false, s!!"single", s!!"foo0")]).debug plain = s!!"{\"single\": \"foo0\"}" := by decide +kernel
example : (filled [(true, s!!"multi", s!!"foo0"), (true, s!!"multi", s!!"foo1")]).debug plain =
    s!!"{\"multi\": [\"foo0\", \"foo1\"]}" := by decide +kernel

/-! src/extensions.rs:105-127, with three types -/

inductive Tys where
  | i32 | mine | bool
  deriving DecidableEq

def Tys.Val : Tys → Type
  | .i32 => Int
  | .mine => Int
  | .bool => Bool

def exts : Extensions Tys.Val := ((Extensions.new.insert .i32 (5 : Int)).2.insert .mine (10 : Int)).2

example : exts.get .i32 = some (5 : Int) ∧ (exts.modify .i32 id).1 = some (5 : Int) ∧
    (exts.remove .i32).1 = some (5 : Int) ∧ (exts.remove .i32).2.get .i32 = none ∧
    (exts.remove .i32).2.get .bool = none ∧ (exts.remove .i32).2.get .mine = some (10 : Int) := by
  refine ⟨rfl, rfl, rfl, rfl, rfl, rfl⟩

/-! src/conditional/etag.rs:140-190 -/

example : trip ETag.name (ETag.value (.strong s!!"0xcafebeef")) ETag.fromHeaders = .ok (some (.strong s!!"0xcafebeef")) := by
  decide +kernel
example : trip ETag.name (ETag.value (.weak s!!"0xcafebeef")) ETag.fromHeaders = .ok (some (.weak s!!"0xcafebeef")) := by
  decide +kernel
example : ∀ s ∈ [s!!"<nori ate the tag. yum.>", s!!"\"hello", s!!"hello\"", s!!"/O\"valid content\"", s!!"/Wvalid content\"",
    s!!"\"\"hello\"", s!!"\"hello\x7f\""], given ETag.name s ETag.fromHeaders = .err 400 := by decide +kernel

/-! src/conditional/if_match.rs:236-273, src/conditional/if_none_match.rs:242-279, src/conditional/vary.rs:243-274 -/

def tags : StarList ETag :=
  StarList.new.run [.list (.push (.strong s!!"0xcafebeef")), .list (.push (.strong s!!"0xbeefcafe"))]

example : trip IfMatch.name (IfMatch.value tags) IfMatch.fromHeaders =
    .ok (some ⟨[.strong s!!"0xcafebeef", .strong s!!"0xbeefcafe"], false⟩) ∧
    trip IfMatch.noneName (IfMatch.value tags) IfMatch.noneFromHeaders =
      .ok (some ⟨[.strong s!!"0xcafebeef", .strong s!!"0xbeefcafe"], false⟩) := by decide +kernel

def tagStar : StarList ETag := StarList.new.run [.list (.push (.strong s!!"0xcafebeef")), .setWildcard true]

example : trip IfMatch.name (IfMatch.value tagStar) IfMatch.fromHeaders = .ok (some ⟨[.strong s!!"0xcafebeef"], true⟩) ∧
    trip IfMatch.noneName (IfMatch.value tagStar) IfMatch.noneFromHeaders = .ok (some ⟨[.strong s!!"0xcafebeef"], true⟩) := by
  decide +kernel
example : (((Vary.pushStr StarList.new s!!"User-Agent").bind fun l => Vary.pushStr l s!!"Accept-Encoding").bind fun l =>
      (trip Vary.name (Vary.value l) Vary.fromHeaders).map (·.map fun l =>
        (l.entries.map fun n => (HeaderName.eqStr n s!!"User-Agent", HeaderName.eqStr n s!!"Accept-Encoding"), l.wildcard))) =
    .ok (some ([(true, false), (false, true)], false)) := by decide +kernel
example : ((Vary.pushStr StarList.new s!!"User-Agent").bind fun l =>
      (trip Vary.name (Vary.value (l.run [.setWildcard true])) Vary.fromHeaders).map (·.map fun l =>
        (l.entries.map (HeaderName.eqStr · s!!"User-Agent"), l.wildcard))) = .ok (some ([true], true)) := by decide +kernel

/-! The tests of the five headers with one date, at a fixed time; src/conditional/if_modified_since.rs:88-113 and so on -/

example : ∀ d ∈ [DateHeader.date, .expires, .ifModifiedSince, .ifUnmodifiedSince, .lastModified],
    trip d.name (d.value ⟨1700000300, 7⟩) d.fromHeaders = .ok (some ⟨1700000300, 0⟩) ∧
    given d.name s!!"<nori ate the tag. yum.>" d.fromHeaders = .err 400 := by decide +kernel

/-! src/utils/date.rs:422-490 -/

example : ∀ s ∈ [s!!"Sun, 06 Nov 1994 08:49:37 GMT", s!!"Sunday, 06-Nov-94 08:49:37 GMT", s!!"Sun Nov  6 08:49:37 1994"],
    parseHttpDate s = .ok ⟨784111777, 0⟩ := by decide +kernel
example : parseHttpDate s!!"Sun, 02 Oct 2016 14:44:11 GMT" = .ok ⟨1475419451, 0⟩ := by decide +kernel
example : ∀ s ∈ [s!!"Sun Nov 10 08:00:00 1000", s!!"Sun Nov 10 08*00:00 2000", s!!"Sunday, 06-Nov-94 08+49:37 GMT"],
    parseHttpDate s = .err 400 := by decide +kernel
example : [s!!"Thu, 01 Jan 1970 00:00:00 GMT", s!!"Thu, 01 Jan 1970 01:00:00 GMT", s!!"Fri, 02 Jan 1970 01:00:00 GMT",
      s!!"Sun, 01 Feb 1970 01:00:00 GMT", s!!"Tue, 03 Mar 1970 01:00:00 GMT", s!!"Wed, 03 Mar 1971 01:00:05 GMT",
      s!!"Mon, 30 Aug 1971 01:00:05 GMT", s!!"Mon, 08 Nov 1971 01:00:05 GMT", s!!"Fri, 26 Mar 1999 01:00:05 GMT"].map
      parseHttpDate =
    ([0, 3600, 3600 + 86400, 3600 + 86400 + 2592000, 3600 + 86400 + 2 * 2592000, 3600 + 86400 + 2 * 2592000 + 31536005,
      3600 + 86400 + 2 * 2592000 + 31536005 + 15552000, 3600 + 86400 + 2 * 2592000 + 31536005 + 15552000 + 6048000,
      3600 + 86400 + 2 * 2592000 + 31536005 + 15552000 + 6048000 + 864000000].map fun n => .ok ⟨n, 0⟩) := by decide +kernel
example : fmtHttpDate ⟨0, 0⟩ = .ok s!!"Thu, 01 Jan 1970 00:00:00 GMT" ∧
    fmtHttpDate ⟨1475419451, 0⟩ = .ok s!!"Sun, 02 Oct 2016 14:44:11 GMT" := by decide +kernel

/-! src/security/strict_transport_security.rs:167-214, src/security/timing_allow_origin.rs:263-318, tests/security.rs -/

example : trip Hsts.NAME (.ok (Hsts.headerValue (Hsts.new ⟨30, 0⟩))) Hsts.fromHeaders = .ok (some ⟨⟨30, 0⟩, false, false⟩) := by
  decide +kernel
example : given Hsts.NAME s!!"<nori ate the tag. yum.>" Hsts.fromHeaders = .err 400 := by decide +kernel
example : given Hsts.NAME s!!"max-age=birds" Hsts.fromHeaders = .err 400 := by decide +kernel
example : given Hsts.NAME s!!"max-age=30;     preload" Hsts.fromHeaders = .ok (some ⟨⟨30, 0⟩, false, true⟩) := by decide +kernel

/-- `Url::parse` on the texts of these tests: URLs are their texts. -/
def originOf (s : Str) : Option Str :=
  if s = s!!"https://example.com/" ∨ s = s!!"https://mozilla.org/" then some s else none

example : trip TimingAllowOrigin.name (TimingAllowOrigin.value id (StarList.new.run [.list (.push s!!"https://example.com/")]))
    (TimingAllowOrigin.fromHeaders originOf) = .ok (some ⟨[s!!"https://example.com/"], false⟩) := by decide +kernel
example : trip TimingAllowOrigin.name (TimingAllowOrigin.value id
      (StarList.new.run [.list (.push s!!"https://example.com/"), .list (.push s!!"https://mozilla.org/")]))
    (TimingAllowOrigin.fromHeaders originOf) = .ok (some ⟨[s!!"https://example.com/", s!!"https://mozilla.org/"], false⟩) := by
  decide +kernel
example : given TimingAllowOrigin.name s!!"server; <nori ate your param omnom>" (TimingAllowOrigin.fromHeaders originOf) =
    .err 400 := by decide +kernel
example : trip TimingAllowOrigin.name (TimingAllowOrigin.value id
      (StarList.new.run [.list (.push s!!"https://example.com/"), .setWildcard true]))
    (TimingAllowOrigin.fromHeaders originOf) = .ok (some ⟨[s!!"https://example.com/"], true⟩) := by decide +kernel

def policy : Csp := CspOp.run Csp.new [.add .defaultSrc Source.sameOrigin.asRef, .add .defaultSrc s!!"areweasyncyet.rs",
  .add .scriptSrc Source.sameOrigin.asRef, .add .scriptSrc Source.unsafeInline.asRef, .add .objectSrc Source.none.asRef,
  .add .baseUri Source.none.asRef, .upgradeInsecureRequests]

example : ((Security.default []).bind fun h => (policy.apply h).2).bind (fun h => (h.indexStr s!!"content-security-policy").map
      (HeaderValues.eqStr · (s!!"base-uri 'none'; default-src 'self' areweasyncyet.rs; object-src 'none'; script-src 'self' " ++
        s!!"'unsafe-inline'; upgrade-insecure-requests"))) = .ok true := by decide +kernel

/-! src/request.rs:917-1127: host and remote address -/

def forwardedBy (client : Str) : Bool × Str × Str :=
  (false, s!!"Forwarded", s!!"by=something.com;for=" ++ client ++ s!!";host=host.com;proto=http")

def xFor (client : Str) : Bool × Str × Str := (false, s!!"x-forwarded-for", client ++ s!!",proxy.com,other-proxy.com")

def xHost (h : Str) : Bool × Str × Str := (false, s!!"x-forwarded-host", h ++ s!!",proxy.com,other-proxy.com")

/-- The host of `http://async.rs/`. -/
def own : Option Str := some s!!"async.rs"

def peer : Option Str := some s!!"127.0.0.1:8000"

open Request in
example : forwardedPart (filled [forwardedBy s!!"-", xHost s!!"this will not be used"]) s!!"host" = .ok (some s!!"host.com") ∧
    host (filled [forwardedBy s!!"-", xHost s!!"this will not be used"]) own = .ok (some s!!"host.com") ∧
    forwardedPart (filled [xHost s!!"expected.host"]) s!!"host" = .ok none ∧
    host (filled [xHost s!!"expected.host"]) own = .ok (some s!!"expected.host") ∧
    host (filled [(false, s!!"x-forwarded-host", s!!"expected.host")]) own = .ok (some s!!"expected.host") ∧
    host (filled [(false, s!!"host", s!!"host.header")]) own = .ok (some s!!"host.header") ∧
    host [] own = .ok own ∧ host [] none = .ok none := by decide +kernel

open Request in
example : forwardedFor (filled [forwardedBy s!!"127.0.0.1:8001"]) = .ok (some s!!"127.0.0.1:8001") ∧
    remote (filled [forwardedBy s!!"127.0.0.1:8001"]) peer = .ok (some s!!"127.0.0.1:8001") ∧
    forwardedFor (filled [(false, s!!"Forwarded", s!!"this is an improperly ;;; formatted header")]) = .ok none ∧
    remote (filled [(false, s!!"Forwarded", s!!"this is an improperly ;;; formatted header")]) peer = .ok peer ∧
    forwardedFor (filled [xFor s!!"forwarded-host.com"]) = .ok (some s!!"forwarded-host.com") ∧
    remote (filled [xFor s!!"forwarded-host.com"]) (some s!!"/dev/random") = .ok (some s!!"forwarded-host.com") ∧
    forwardedFor (filled [forwardedBy s!!"forwarded.com", xFor s!!"forwarded-for-client.com"]) = .ok (some s!!"forwarded.com") ∧
    remote (filled [forwardedBy s!!"forwarded.com", xFor s!!"forwarded-for-client.com"]) peer = .ok (some s!!"forwarded.com") ∧
    forwardedFor [] = .ok none ∧ remote [] peer = .ok peer ∧ remote [] none = .ok none := by decide +kernel

/-- No reader but the empty one. -/
def nothing : BodyI (Body Unit) := Body.iface ()

example : [ReqVal.Ctor.get, .head, .post, .put, .delete, .connect, .options, .trace, .patch].map
      (fun c => (c.make (T := Tys.Val) nothing (some s!!"https://example.com")).map (·.method)) =
    [Method.get, .head, .post, .put, .delete, .connect, .options, .trace, .patch].map .ok := by decide +kernel

/-! src/response.rs:728-737, src/status.rs:173-184, tests/error.rs, with one type of errors -/

example : (RespVal.new (T := Tys.Val) nothing (.num 200)).map (·.status) = .ok .ok ∧
    (RespVal.new (T := Tys.Val) nothing (.num 600)).map (·.status) = .panic := by decide +kernel

/-- Errors are texts. -/
def texts : ErrTypes where
  Ty := Unit
  dec := inferInstance
  Val _ := Str
  typeName _ := s!!"std::io::error::Error"
  display _ s := s
  debug _ s := s
  str := ()
  ofStr := id
  string := ()
  ofString := id

def ohNo : ErrVal texts := ⟨(), s!!"Oh no"⟩

/-- The status of an error, as the tests look at it. -/
def statusOf {α : Type} : Out α (HError texts) → Option StatusCode
  | .err e => some e.status
  | _ => none

example : (HError.ofError (W := texts) (.any (.ofVal ohNo))).map (·.status) = some .internalServerError := by decide +kernel
example : (HError.new (W := texts) (.code .imATeapot) (.any (.ofVal ohNo))).map (·.status) = some .imATeapot := by
  decide +kernel
example : (HError.new (W := texts) (.num 404) (.any (.ofVal ohNo))).map (·.status) = some .notFound ∧
    (HError.fromStr (W := texts) (.num 404) ohNo).map (·.status) = some .notFound := by decide +kernel
example : (HError.new (W := texts) (.num 1000) (.any (.ofVal ohNo))).isNone ∧
    (HError.fromStr (W := texts) (.num 1000) ohNo).isNone := by decide +kernel
example : statusOf (StatusTrait.resultStatus (T := Unit) (.error ohNo) (.code .notFound)) = some .notFound ∧
    statusOf (StatusTrait.optionStatus (T := Unit) none (.code .notFound)) = some .notFound := by decide +kernel
example : (match StatusTrait.resultStatus (T := Unit) (W := texts) (.error ohNo) (.num 600) with
    | .panic => true
    | _ => false) = true := by decide +kernel
example : (match StatusTrait.optionStatus (W := texts) (some ()) (.num 200) with
    | .ok _ => true
    | _ => false) = true := by decide +kernel
example : statusOf (Macro.ensure (α := Unit) (fun s => (true, s)) (fun s => (ohNo, s))
      (fun s => Macro.bail (fun s => (ohNo, s)) s) ()).1 = some .internalServerError := by decide +kernel
example : statusOf (Macro.ensureEq (α := Unit) (fun s => (1, s)) (fun s => (1, s)) (fun s => (ohNo, s))
      (fun s => Macro.bail (fun s => (ohNo, s)) s) ()).1 = some .internalServerError := by decide +kernel

/-! tests/querystring.rs, with the outcomes of the crate `serde_qs` as parameters -/

/-- URLs are pairs of a text and a query. -/
def queries : UrlQuery (Str × Option Str) where
  query u := u.2
  setQuery u q := (u.1, q)

def asked (q : Option Str) (decode : Str → Option Str) : Res Str :=
  (ReqVal.new (T := Tys.Val) nothing .get (some (s!!"http://example.com/", q))).bind fun r => r.query queries decode

example : asked (some s!!"msg=Hello") (fun s => if s = s!!"msg=Hello" then some s!!"Hello" else none) = .ok s!!"Hello" ∧
    asked none (fun _ => none) = .err 400 ∧ asked (some s!!"error=should_fail") (fun _ => none) = .err 400 ∧
    asked none (fun s => if s = [] then some [] else none) = .ok [] := by decide +kernel

/-! tests/req_res_body.rs -/

example : (ReqVal.new (T := Tys.Val) nothing .get (some s!!"http://example.com/")).bind (fun r =>
      (RespVal.new (T := Tys.Val) nothing (.code .ok)).map fun p =>
        let r := { r with msg := r.msg.setBody nothing nothing.empty }
        let p := { p with msg := p.msg.setBody nothing r.toBody }
        Body.intoBytes emptyI p.msg.body [32]) = .ok (some (.ok [])) := by decide +kernel
example : (ReqVal.new (T := Tys.Val) nothing .get (some s!!"http://example.com/")).bind (fun r =>
      (RespVal.new (T := Tys.Val) nothing (.code .ok)).map fun p =>
        let r := { r with msg := (r.msg.takeBody nothing).2 }
        let p := { p with msg := (p.msg.replaceBody nothing r.toBody).2 }
        Body.intoBytes emptyI p.msg.body [32]) = .ok (some (.ok [])) := by decide +kernel

end HT.Conform
