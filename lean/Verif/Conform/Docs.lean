import Verif.Conform.Content
import Verif.Conform.Forwarded
import Verif.Conform.Message

/-!
Assertions of the examples in the documentation comments that the unit tests do not make, about the model; see
`Verif/Conform/Basic.lean`. Those behind `//` in src/security/mod.rs are not compiled and are left out.
-/

namespace HT.Conform

set_option synthInstance.maxSize 1000

/-! src/trace/trace_context.rs:14-36, 50-59, 160-190 -/

example : given TraceContext.NAME s!!"00-0af7651916cd43dd8448eb211c80319c-00f067aa0ba902b7-01" (TraceContext.fromHeaders 7) =
    .ok (some ⟨7, 0, 0x0af7651916cd43dd8448eb211c80319c, some 0x00f067aa0ba902b7, 1⟩) := by decide +kernel
example : (given TraceContext.NAME s!!"00-00000000000000000000000000000001-0000000000000002-01" (TraceContext.fromHeaders 7)).map
    (·.map TraceContext.sampled) = .ok (some true) := by decide +kernel
example : ((TraceContext.new 7 8).setSampled false).sampled = false := by decide +kernel

/-! src/proxies/forwarded.rs:44-206 -/

example : (given Forwarded.NAME s!!"for=192.0.2.43, for=\"[2001:db8:cafe::17]\", for=unknown;proto=https"
      (Forwarded.fromHeaders v6)) =
    .ok (some ⟨none, [s!!"192.0.2.43", s!!"[2001:db8:cafe::17]", s!!"unknown"], none, some s!!"https"⟩) ∧
    given Forwarded.NAME s!!"for=192.0.2.43, for=\"[2001:db8:cafe::17]\", for=unknown;proto=https"
      (Forwarded.fromXHeaders v6) = .ok none := by decide +kernel
example : (Forwarded.fromHeaders v6 (filled [(false, s!!"X-Forwarded-For", s!!"192.0.2.43, 2001:db8:cafe::17, unknown"),
      (false, s!!"X-Forwarded-Proto", s!!"https")])).map (·.map fun f => (f, f.headerValue)) =
    .ok (some (⟨none, [s!!"192.0.2.43", s!!"[2001:db8:cafe::17]", s!!"unknown"], none, some s!!"https"⟩,
      s!!"for=192.0.2.43, for=\"[2001:db8:cafe::17]\", for=unknown;proto=https")) := by decide +kernel
example : Forwarded.fromForwardedHeader (filled [(false, s!!"X-Forwarded-For", s!!"192.0.2.43, 2001:db8:cafe::17")]) =
    .ok none := by decide +kernel
example : (Forwarded.parse s!!"for=192.0.2.43,         for=\"[2001:db8:cafe::17]\", FOR=unknown;proto=https").map
      (fun f => (f.forwardedFor, f.headerValue)) =
    .ok ([s!!"192.0.2.43", s!!"[2001:db8:cafe::17]", s!!"unknown"],
      s!!"for=192.0.2.43, for=\"[2001:db8:cafe::17]\", for=unknown;proto=https") := by decide +kernel

/-! src/content/accept.rs:31-49, src/content/content_encoding.rs:18-34, src/transfer/transfer_encoding.rs:15-31 -/

example : (agreed AcceptList.negotiateMedia (listOf [Proposal.newMedia Mime.HTML (f32 s!!"0.8"),
      Proposal.newMedia Mime.XML (f32 s!!"0.4"), .ok (.ofItem Mime.PLAIN)] false) [Mime.XML]).bind (fun m =>
      (applyHeader [] ContentType.name (ContentType.value m)).bind fun h => (h.indexStr s!!"Content-Type").map
        (HeaderValues.eqStr · s!!"application/xml;charset=utf-8")) = .ok true := by decide +kernel
example : trip ContentEncoding.name (.ok (Encoding.display .gzip)) (readCoding ContentEncoding.name Encoding.fromStr) =
    .ok (some .gzip) := by decide +kernel
example : trip TransferEncoding.name (.ok (TEncoding.display .chunked)) (readCoding TransferEncoding.name TEncoding.fromStr) =
    .ok (some .chunked) := by decide +kernel

/-! src/mime/mod.rs:19-28, 134-148 -/

example : (Mime.parse s!!"text/html;charset=utf-8").bind (fun m => (m.paramStr s!!"charset").map fun c => (m.essence, c)) =
    .ok (s!!"text/html", some s!!"utf-8") := by decide +kernel

/-- Whether what one text stands for is among what another stands for. -/
def within (a b : Str) : Res Bool := (Mime.parse a).bind fun a => (Mime.parse b).map fun b => a.subsetEq b

example : within s!!"text/css" s!!"*/*" = .ok true ∧ within s!!"text/css" s!!"text/css" = .ok true ∧
    within s!!"text/css;encoding=utf-8" s!!"text/css" = .ok true ∧
    within s!!"*/css;encoding=utf-8" s!!"text/css" = .ok false := by decide +kernel

/-! src/body.rs:165-176, 214-225, 459-519 -/

example : Body.intoBytes cursorI (.fromBytes [1, 2, 3]) [32, 32] = some (.ok [1, 2, 3]) := by decide +kernel
example : Body.intoString cursorI (.fromReader (utf8Encode s!!"Hello Nori") none) [32, 32] = some (.ok s!!"Hello Nori") := by decide +kernel
example : (Body.fromReader (utf8Encode s!!"Hello Nori") (some 10)).len = some 10 := by decide +kernel
example : (Body.empty.setMime (some Mime.CSS)).mime = some Mime.CSS ∧ (Body.empty.setMime none).mime = none := by decide +kernel
example : (Body.chain (.fromReader (utf8Encode s!!"Hello ") none) (.fromString s!!"Nori")).map
    (fun c => Body.intoString (Body.chainReaderI cursorI cursorI) c [32, 32, 32]) = .ok (some (.ok s!!"Hello Nori")) := by
  decide +kernel

/-! src/response.rs:170-247, 419-430, and the same examples in src/request.rs -/

/-- Bodies over bytes. -/
def overBytes : BodyI (Body (List Byte)) := Body.iface []

/-- A message with a text as body. -/
def nori : Msg (Body (List Byte)) := (Msg.new overBytes).setBody overBytes (.fromString s!!"Hello, Nori!")

def textOf (b : Body (List Byte)) : Option (Res Str) := Body.intoString cursorI b [32, 32]

example : textOf (nori.replaceBody overBytes (.fromString s!!"Hello, Chashu")).1 = some (.ok s!!"Hello, Nori!") ∧
    textOf (nori.swapBody overBytes (.fromString s!!"Hello, Chashu!")).1 = some (.ok s!!"Hello, Nori!") ∧
    textOf (nori.takeBody overBytes).1 = some (.ok s!!"Hello, Nori!") ∧
    textOf (nori.takeBody overBytes).2.body = some (.ok []) := by decide +kernel
example : (RespVal.new (T := Tys.Val) nothing (.code .ok)).map (fun r =>
      (r.version, (RespOp.step nothing r (.setVersion (some .http2_0))).version)) = .ok (none, some .http2_0) := by decide +kernel

end HT.Conform
