import Verif.Model.DebugTyped
import Verif.Model.Whole

/-!
`{:?}` of requests, responses, versions and trailers, all derived. Only the plain form is modelled, not `{:#?}`.
-/

namespace HT

/-- `Debug for Version`, derived, src/version.rs:2-19. -/
def Version.debug : Version → Str
  | .http0_9 => s!!"Http0_9"
  | .http1_0 => s!!"Http1_0"
  | .http1_1 => s!!"Http1_1"
  | .http2_0 => s!!"Http2_0"
  | .http3_0 => s!!"Http3_0"

/-- `Debug for Trailers`, derived, src/trailers.rs:63-66. -/
def Trailers.debug (pr : Char → Bool) (h : Headers) : Str := debugStruct s!!"Trailers" [(s!!"headers", h.debug pr)]

/-- `Debug for Option<async_channel::Sender<_>>`: the sender prints as `Sender { .. }` (async-channel 1.x), whatever
is in the channel. -/
def debugSender (there : Bool) : Str := debugOpt (fun _ => s!!"Sender { .. }") (if there then some () else none)

/-- `Debug for Option<async_channel::Receiver<_>>`. -/
def debugReceiver (there : Bool) : Str := debugOpt (fun _ => s!!"Receiver { .. }") (if there then some () else none)

/-- `Debug for Request`, derived, src/request.rs:30-44; `pu` is `Debug for Url`. -/
def ReqVal.debug {Url σ κ : Type} {T : κ → Type} (pr : Char → Bool) (pu : Url → Str) (r : ReqVal Url (Body σ) T) : Str :=
  debugStruct s!!"Request" [(s!!"method", r.method.debug), (s!!"url", pu r.url), (s!!"headers", r.msg.headers.debug pr),
    (s!!"version", debugOpt Version.debug r.version), (s!!"body", r.msg.body.debug),
    (s!!"local_addr", debugOpt (debugStr pr) r.localAddr), (s!!"peer_addr", debugOpt (debugStr pr) r.peerAddr),
    (s!!"ext", r.ext.debug), (s!!"trailers_sender", debugSender r.trailers.sender),
    (s!!"trailers_receiver", debugReceiver r.trailers.receiver), (s!!"has_trailers", debugBool r.trailers.flag)]

/-- `Debug for Response`, derived, src/response.rs:36-53; `Debug for StatusCode` is src/status_code.rs:707-711. -/
def RespVal.debug {σ κ : Type} {T : κ → Type} (pr : Char → Bool) (r : RespVal (Body σ) T) : Str :=
  debugStruct s!!"Response" [(s!!"status", r.status.display), (s!!"headers", r.msg.headers.debug pr),
    (s!!"version", debugOpt Version.debug r.version), (s!!"has_trailers", debugBool r.trailers.flag),
    (s!!"trailers_sender", debugSender r.trailers.sender), (s!!"trailers_receiver", debugReceiver r.trailers.receiver),
    (s!!"upgrade_sender", debugSender r.upgrade.sender), (s!!"upgrade_receiver", debugReceiver r.upgrade.receiver),
    (s!!"has_upgrade", debugBool r.upgrade.flag), (s!!"body", r.msg.body.debug), (s!!"ext", r.ext.debug),
    (s!!"local_addr", debugOpt (debugStr pr) r.localAddr), (s!!"peer_addr", debugOpt (debugStr pr) r.peerAddr)]

end HT
