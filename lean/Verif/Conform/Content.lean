import Verif.Conform.Basic
import Verif.Model.Clock
import Verif.Model.Method
import Verif.Model.ParseUtils

/-! Tests of src/content, src/transfer, src/other, src/parse_utils.rs and src/method.rs about the model; see
`Verif/Conform/Basic.lean`. -/

namespace HT.Conform

set_option synthInstance.maxSize 1000

/-- A literal of type `f32`. -/
def f32 (s : Str) : Option Fl := Fl.parse f32Format s

/-- A list built by pushing, no push failing. -/
def listOf {α : Type} (ps : List (Res (Proposal α))) (wildcard : Bool) : Res (AcceptList α) :=
  ps.foldl (fun a p => a.bind fun a => p.map a.push) (.ok (AcceptList.new.setWildcard wildcard))

/-- Built, written, read, perhaps sorted: the wildcard and the items in the order of iteration. -/
def sentList {α : Type} (name : HeaderName) (value : AcceptList α → Res HeaderValue)
    (read : Headers → Res (Option (AcceptList α))) (sort : Bool) (a : Res (AcceptList α)) : Res (Option (Bool × List α)) :=
  a.bind fun a => (trip name (value a) read).map (·.map fun a =>
    let a := if sort then a.sort else a
    (a.wildcard, a.entries.map (·.item)))

/-! src/content/accept.rs:295-440 -/

def media := sentList Accept.name Accept.value Accept.fromHeaders

example : media false (listOf [.ok (.ofItem Mime.HTML)] false) = .ok (some (false, [Mime.HTML])) := by decide +kernel
example : media false (listOf [] true) = .ok (some (true, [])) := by decide +kernel
example : media false (listOf [.ok (.ofItem Mime.HTML)] true) = .ok (some (true, [Mime.HTML])) := by decide +kernel
example : media false (listOf [.ok (.ofItem Mime.HTML), .ok (.ofItem Mime.XML)] false) =
    .ok (some (false, [Mime.HTML, Mime.XML])) := by decide +kernel
example : media true (listOf [Proposal.newMedia Mime.HTML (f32 s!!"0.4"), Proposal.newMedia Mime.XML none,
      Proposal.newMedia Mime.PLAIN (f32 s!!"0.8")] false) = .ok (some (false, [Mime.XML, Mime.PLAIN, Mime.HTML])) := by decide +kernel
example : media true (listOf [Proposal.newMedia Mime.HTML none, Proposal.newMedia Mime.XML none, Proposal.newMedia Mime.PLAIN (f32 s!!"0.8")] false) =
    .ok (some (false, [Mime.XML, Mime.HTML, Mime.PLAIN])) := by decide +kernel

/-- The outcome of a negotiation with a list built by pushing. -/
def agreed {α : Type} (neg : AcceptList α → List α → AcceptList α × Res α) (a : Res (AcceptList α)) (available : List α) : Res α :=
  a.bind fun a => (neg a available).2

example : agreed AcceptList.negotiateMedia (listOf [Proposal.newMedia Mime.HTML (f32 s!!"0.4"), Proposal.newMedia Mime.PLAIN (f32 s!!"0.8"),
      Proposal.newMedia Mime.XML none] false) [Mime.HTML, Mime.XML] = .ok Mime.XML := by decide +kernel
example : agreed AcceptList.negotiateMedia (listOf [] false) [Mime.JSON] = .err 406 := by decide +kernel
example : agreed AcceptList.negotiateMedia (listOf [Proposal.newMedia Mime.JSON (f32 s!!"0.8")] false) [Mime.XML] = .err 406 := by
  decide +kernel
example : agreed AcceptList.negotiateMedia (listOf [Proposal.newMedia Mime.JSON (f32 s!!"0.8")] true) [Mime.XML] = .ok Mime.XML := by
  decide +kernel
example : agreed AcceptList.negotiateMedia (listOf [(Mime.parse s!!"text/html").bind fun m => Proposal.newMedia m none] false)
    [Mime.HTML] = .ok Mime.HTML := by decide +kernel

/-! src/content/accept_encoding.rs:288-411 -/

def codings := sentList AcceptEncoding.name AcceptEncoding.value AcceptEncoding.fromHeaders

example : codings false (listOf [.ok (.ofItem .gzip)] false) = .ok (some (false, [.gzip])) := by decide +kernel
example : codings false (listOf [] true) = .ok (some (true, [])) := by decide +kernel
example : codings false (listOf [.ok (.ofItem .gzip)] true) = .ok (some (true, [.gzip])) := by decide +kernel
example : codings false (listOf [.ok (.ofItem .gzip), .ok (.ofItem .brotli)] false) = .ok (some (false, [.gzip, .brotli])) := by
  decide +kernel
example : codings true (listOf [Proposal.new .gzip (f32 s!!"0.4"), Proposal.new .identity none, Proposal.new .brotli (f32 s!!"0.8")] false) =
    .ok (some (false, [.brotli, .gzip, .identity])) := by decide +kernel
example : codings true (listOf [Proposal.new .identity none, Proposal.new .gzip none, Proposal.new .brotli (f32 s!!"0.8")] false) =
    .ok (some (false, [.brotli, .gzip, .identity])) := by decide +kernel
example : agreed AcceptList.negotiate (listOf [Proposal.new Encoding.brotli (f32 s!!"0.8"), Proposal.new .gzip (f32 s!!"0.4"),
      Proposal.new .identity none] false) [.brotli, .gzip] = .ok .brotli := by decide +kernel
example : agreed AcceptList.negotiate (listOf [] false) [Encoding.gzip] = .err 406 := by decide +kernel
example : agreed AcceptList.negotiate (listOf [Proposal.new Encoding.brotli (f32 s!!"0.8")] false) [.gzip] = .err 406 := by decide +kernel
example : agreed AcceptList.negotiate (listOf [Proposal.new Encoding.brotli (f32 s!!"0.8")] true) [.gzip] = .ok .gzip := by decide +kernel

/-! src/transfer/te.rs:286-409 -/

def tcodings := sentList TE.name TE.value TE.fromHeaders

example : tcodings false (listOf [.ok (.ofItem .gzip)] false) = .ok (some (false, [.gzip])) := by decide +kernel
example : tcodings false (listOf [] true) = .ok (some (true, [])) := by decide +kernel
example : tcodings false (listOf [.ok (.ofItem .gzip)] true) = .ok (some (true, [.gzip])) := by decide +kernel
example : tcodings false (listOf [.ok (.ofItem .gzip), .ok (.ofItem .brotli)] false) = .ok (some (false, [.gzip, .brotli])) := by
  decide +kernel
example : tcodings true (listOf [Proposal.new .gzip (f32 s!!"0.4"), Proposal.new .identity none, Proposal.new .brotli (f32 s!!"0.8")] false) =
    .ok (some (false, [.brotli, .gzip, .identity])) := by decide +kernel
example : tcodings true (listOf [Proposal.new .identity none, Proposal.new .gzip none, Proposal.new .brotli (f32 s!!"0.8")] false) =
    .ok (some (false, [.brotli, .gzip, .identity])) := by decide +kernel
example : agreed AcceptList.negotiate (listOf [Proposal.new TEncoding.brotli (f32 s!!"0.8"), Proposal.new .gzip (f32 s!!"0.4"),
      Proposal.new .identity none] false) [.brotli, .gzip] = .ok .brotli := by decide +kernel
example : agreed AcceptList.negotiate (listOf [] false) [TEncoding.gzip] = .err 406 := by decide +kernel
example : agreed AcceptList.negotiate (listOf [Proposal.new TEncoding.brotli (f32 s!!"0.8")] false) [.gzip] = .err 406 := by decide +kernel
example : agreed AcceptList.negotiate (listOf [Proposal.new TEncoding.brotli (f32 s!!"0.8")] true) [.gzip] = .ok .gzip := by decide +kernel

/-! src/content/encoding_proposal.rs:125-144, src/content/media_type_proposal.rs:143-162, src/transfer/encoding_proposal.rs:127-146 -/

example : ∀ t ∈ [s!!"0.0", s!!"0.5", s!!"1.0"], Proposal.new Encoding.gzip (f32 t) = .ok ⟨.gzip, f32 t⟩ ∧
    Proposal.new TEncoding.gzip (f32 t) = .ok ⟨.gzip, f32 t⟩ ∧ Proposal.newMedia Mime.JSON (f32 t) = .ok ⟨Mime.JSON, f32 t⟩ := by
  decide +kernel
example : ∀ t ∈ [s!!"1.1", s!!"-0.1", s!!"-0.0"], Proposal.new Encoding.gzip (f32 t) = .err 500 ∧
    Proposal.new TEncoding.gzip (f32 t) = .err 500 ∧ Proposal.newMedia Mime.JSON (f32 t) = .err 500 := by decide +kernel

/-! src/content/content_length.rs:82-103, src/content/content_type.rs:112-136, src/other/expect.rs:75-94, src/other/date.rs:131-136 -/

example : trip ContentLength.name (ContentLength.value 12) ContentLength.fromHeaders = .ok (some 12) := by decide +kernel
example : given ContentLength.name s!!"<nori ate the tag. yum.>" ContentLength.fromHeaders = .err 400 := by decide +kernel
example : ((Mime.parse s!!"text/*").bind fun m => (trip ContentType.name (ContentType.value m) ContentType.fromHeaders).map
    (·.map fun c => (ContentType.value c, Mime.display m))) = .ok (some (.ok s!!"text/*", s!!"text/*")) := by decide +kernel
example : given ContentType.name s!!"<nori ate the tag. yum.>" ContentType.fromHeaders = .err 400 := by decide +kernel
example : trip Expect.name Expect.value Expect.fromHeaders = .ok (some ()) := by decide +kernel
example : given Expect.name s!!"<nori ate the tag. yum.>" Expect.fromHeaders = .err 400 := by decide +kernel
example : given DateHeader.date.name s!!"<nori ate the tag. yum.>" DateHeader.date.fromHeaders = .err 400 := by decide +kernel

/-! src/other/retry_after.rs:131-163, at a fixed time -/

example : ((trip RetryAfter.name (RetryAfter.value (.dur ⟨10, 0⟩)) RetryAfter.fromHeaders).bind fun r => match r with
      | some r => r.durationSince ⟨1700000000, 5⟩ ⟨1700000000, 5⟩
      | none => .panic) = .ok (some ⟨10, 0⟩) := by decide +kernel
example : ((trip RetryAfter.name (RetryAfter.value (.at ⟨1700000010, 5⟩)) RetryAfter.fromHeaders).bind fun r => match r with
      | some r => r.durationSince ⟨1700000000, 5⟩ ⟨1700000000, 5⟩
      | none => .panic) = .ok (some ⟨9, 999999995⟩) := by decide +kernel

/-! src/content/content_location.rs:101-129, src/other/referer.rs:107-157, src/other/source_map.rs:104-154, with the few URLs of
these tests -/

/-- The crate `url` on these texts: URLs are their texts. -/
def urls : UrlLib Str where
  parse s := if s = s!!"https://example.net/test.json" ∨ s = s!!"https://example.com/test.json" then some s else none
  join b s :=
    if s = s!!"https://example.net/test.json" ∨ s = s!!"https://example.com/test.json" then some s
    else if s = s!!"/test.json" then some (b ++ s!!"test.json") else none
  display s := s

example : trip ContentLocation.name (ContentLocation.value urls s!!"https://example.net/test.json")
    (ContentLocation.fromHeaders urls (some s!!"https://example.net/")) = .ok (some s!!"https://example.net/test.json") := by
  decide +kernel
example : given ContentLocation.name s!!"htt://<nori ate the tag. yum.>"
    (ContentLocation.fromHeaders urls (some s!!"https://example.net/")) = .err 400 := by decide +kernel
example : ∀ k ∈ [RefHeader.referer, RefHeader.sourceMap],
    trip k.name (RefHeader.value urls s!!"https://example.net/test.json") (k.fromHeaders urls (some s!!"https://example.net/")) =
      .ok (some s!!"https://example.net/test.json") ∧
    given k.name s!!"htt://<nori ate the tag. yum.>" (k.fromHeaders urls (some s!!"https://example.net/")) = .err 500 ∧
    given k.name s!!"/test.json" (k.fromHeaders urls (some s!!"https://fallback.net/")) =
      .ok (some s!!"https://fallback.net/test.json") ∧
    given k.name s!!"https://example.com/test.json" (k.fromHeaders urls (some s!!"https://fallback.net/")) =
      .ok (some s!!"https://example.com/test.json") := by decide +kernel

/-! src/parse_utils.rs:123-171 -/

open ParseUtils

example : parseToken s!!"key=value" = (some s!!"key", s!!"=value") ∧ parseToken s!!"KEY=value" = (some s!!"KEY", s!!"=value") ∧
    parseToken s!!"0123)=value" = (some s!!"0123", s!!")=value") ∧ parseToken s!!"a=b" = (some s!!"a", s!!"=b") ∧
    parseToken s!!"!#$%&'*+-.^_`|~=value" = (some s!!"!#$%&'*+-.^_`|~", s!!"=value") := by decide +kernel
example : parseToken [] = (none, []) ∧ parseToken s!!"=value" = (none, s!!"=value") := by decide +kernel
example : ∀ c ∈ s!!"(),/:;<=>?@[\\]{}", parseToken [c] = (none, [c]) ∧
    parseToken (s!!"match" ++ [c] ++ s!!"rest") = (some s!!"match", [c] ++ s!!"rest") := by decide +kernel
example : parseQuotedString s!!"\"key\"=value" = .ok (some s!!"key", s!!"=value") ∧
    parseQuotedString s!!"\"escaped \\\" quote \\\"\"rest" = .ok (some s!!"escaped \" quote \"", s!!"rest") := by decide +kernel
example : ∀ s ∈ [s!!"\"abc", s!!"hello\"", s!!"=value\\", s!!"\\\"", s!!"\"\\\""], parseQuotedString s = .ok (none, s) := by
  decide +kernel

/-! src/method.rs:522-594 -/

example : Method.fromStr s!!"GET" = .ok .get ∧ Method.asStr .patch = s!!"PATCH" := by decide +kernel
example : Method.fromStr s!!"ABC" = .err 500 := by decide +kernel

/-- src/method.rs:535-575 -/
def methodNames : List Str := [
  s!!"ACL", s!!"BASELINE-CONTROL", s!!"BIND", s!!"CHECKIN", s!!"CHECKOUT", s!!"CONNECT", s!!"COPY", s!!"DELETE", s!!"GET",
  s!!"HEAD", s!!"LABEL", s!!"LINK", s!!"LOCK", s!!"MERGE", s!!"MKACTIVITY", s!!"MKCALENDAR", s!!"MKCOL", s!!"MKREDIRECTREF",
  s!!"MKWORKSPACE", s!!"MOVE", s!!"OPTIONS", s!!"ORDERPATCH", s!!"PATCH", s!!"POST", s!!"PRI", s!!"PROPFIND", s!!"PROPPATCH",
  s!!"PUT", s!!"REBIND", s!!"REPORT", s!!"SEARCH", s!!"TRACE", s!!"UNBIND", s!!"UNCHECKOUT", s!!"UNLINK", s!!"UNLOCK",
  s!!"UPDATE", s!!"UPDATEREDIRECTREF", s!!"VERSION-CONTROL"]

example : (methodNames.map Method.fromStr).Nodup ∧
    ∀ s ∈ methodNames, ((Method.fromStr s).bind fun m => Method.fromStr m.asStr) = Method.fromStr s ∧
      (Method.fromStr s).map Method.asStr = .ok s := by decide +kernel

end HT.Conform
