import Verif.Model.Message
import Verif.Model.Method
import Verif.Model.Error
import Verif.Model.Version
import Verif.Model.Extensions
import Verif.Model.Channel
import Verif.Model.Body

/-!
Requests and responses with all their fields, `src/request.rs` and `src/response.rs`. Bodies, URLs and extensions
are opaque here; see the models of `Body`, `Extensions` and of the channels for those.
-/

namespace HT

/-- What is used of `url::Url` by queries: `Url::query` and `Url::set_query`. -/
structure UrlQuery (Url : Type) where
  query : Url → Option Str
  setQuery : Url → Option Str → Url

/-- `Request`, src/request.rs:31-44. -/
structure ReqVal (Url β : Type) {κ : Type} (T : κ → Type) where
  method : Method
  url : Url
  msg : Msg β
  version : Option Version
  localAddr : Option Str
  peerAddr : Option Str
  ext : Extensions T
  trailers : Ends

/-- `Response`, src/response.rs:37-52. -/
structure RespVal (β : Type) {κ : Type} (T : κ → Type) where
  status : StatusCode
  msg : Msg β
  version : Option Version
  trailers : Ends
  upgrade : Ends
  ext : Extensions T
  localAddr : Option Str
  peerAddr : Option Str

/-- Both ends of a new channel, none handed out. -/
def Ends.fresh : Ends := ⟨true, true, false⟩

/-- The bodies of src/body.rs for messages; `e` is the reader `io::empty()` among the boxed readers. -/
def Body.iface {σ : Type} (e : σ) : BodyI (Body σ) := ⟨Body.mime, ⟨e, some Mime.BYTE_STREAM, some 0, 0⟩⟩

namespace ReqVal
variable {Url β : Type} {κ : Type} [DecidableEq κ] {T : κ → Type}

/-- `Request::new`, src/request.rs:49-69; `url` is the outcome of `url.try_into()`. -/
def new (I : BodyI β) (m : Method) (url : Option Url) : Res (ReqVal Url β T) :=
  match url with
  | some u => .ok ⟨m, u, Msg.new I, none, none, none, Extensions.new, .fresh⟩
  | none => .panic

/-- The shorthand constructors. -/
inductive Ctor where
  | get | head | post | put | delete | connect | options | trace | patch
  deriving DecidableEq, Repr

/-- `Request::get`, …, `Request::patch`, src/request.rs:712-884. -/
def Ctor.make (I : BodyI β) (url : Option Url) : Ctor → Res (ReqVal Url β T)
  | get => new I .get url
  | head => new I .head url
  | post => new I .post url
  | put => new I .put url
  | delete => new I .delete url
  | connect => new I .connect url
  | options => new I .options url
  | trace => new I .trace url
  | patch => new I .patch url

/-- `Clone for Request`, src/request.rs:887-905. -/
def clone (I : BodyI β) (r : ReqVal Url β T) : ReqVal Url β T :=
  { method := r.method, url := r.url, msg := ⟨r.msg.headers, I.empty⟩, version := r.version,
    localAddr := r.localAddr, peerAddr := r.peerAddr, ext := Extensions.new, trailers := ⟨false, false, false⟩ }

/-- `Request::set_query`, src/request.rs:691-696; `q` is the outcome of `serde_qs::to_string`. -/
def setQuery (Q : UrlQuery Url) (r : ReqVal Url β T) (q : Option Str) : Res Unit × ReqVal Url β T :=
  match q with
  | none => (.err 400, r)
  | some q => (.ok (), { r with url := Q.setQuery r.url (some q) })

/-- `Request::query`, src/request.rs:657-667; `decode` is `serde_qs::from_str`. -/
def query {α : Type} (Q : UrlQuery Url) (decode : Str → Option α) (r : ReqVal Url β T) : Res α :=
  match decode ((Q.query r.url).getD []) with
  | some a => .ok a
  | none => .err 400

/-- `Request::body_string`, `body_bytes`, `body_json`, `body_form`, src/request.rs:307-310, 333-336, 369-372, 405-408:
take the body and convert it with `into`. -/
def bodyInto {α : Type} (I : BodyI β) (into : β → α) (r : ReqVal Url β T) : α × ReqVal Url β T :=
  (into (r.msg.takeBody I).1, { r with msg := (r.msg.takeBody I).2 })

/-- `From<Request> for Body`, src/request.rs:942-946. -/
def toBody (r : ReqVal Url β T) : β := r.msg.body

end ReqVal

/-- Calls on a request. `header` is `insert_header`, `append_header`, `remove_header`, `header_mut` and writing
through `as_mut`, src/request.rs:416-468; `body` is `set_body` to `take_body`. -/
inductive ReqOp (Url β : Type) {κ : Type} (T : κ → Type) where
  | setMethod (m : Method)
  | urlMut (f : Url → Url)
  | setVersion (v : Option Version)
  | setPeer (a : Option Str)
  | setLocal (a : Option Str)
  | setContentType (m : Mime)
  | header (o : HOp)
  | body (o : MOp β)
  | ext (o : EOp T)

namespace ReqOp
variable {Url β : Type} {κ : Type} [DecidableEq κ] {T : κ → Type}

/-- `set_method`, `url_mut`, `set_version`, `set_peer_addr`, `set_local_addr`, `ext_mut`, …, src/request.rs:74-83,
150-152, 185-187, 416-480, 547-549, 616-618. -/
def step (I : BodyI β) (r : ReqVal Url β T) : ReqOp Url β T → ReqVal Url β T
  | .setMethod m => { r with method := m }
  | .urlMut f => { r with url := f r.url }
  | .setVersion v => { r with version := v }
  | .setPeer a => { r with peerAddr := a }
  | .setLocal a => { r with localAddr := a }
  | .setContentType m => { r with msg := (r.msg.setContentType m).2 }
  | .header o => { r with msg := { r.msg with headers := o.step r.msg.headers } }
  | .body o => { r with msg := o.step I r.msg }
  | .ext o => { r with ext := o.step r.ext }

end ReqOp

namespace RespVal
variable {β : Type} {κ : Type} [DecidableEq κ] {T : κ → Type}

/-- `Response::new`, src/response.rs:57-82. -/
def new (I : BodyI β) (s : StatusArg) : Res (RespVal β T) :=
  match s.tryInto with
  | some c => .ok ⟨c, Msg.new I, none, .fresh, .fresh, Extensions.new, none, none⟩
  | none => .panic

/-- `From<()> for Response`, src/response.rs:642-646. -/
def ofUnit (I : BodyI β) : Res (RespVal β T) := new I (.code .noContent)

/-- `From<StatusCode> for Response`, src/response.rs:675-679. -/
def ofStatus (I : BodyI β) (c : StatusCode) : Res (RespVal β T) := new I (.code c)

/-- `From<T: Into<Body>> for Response`, src/response.rs:681-691. -/
def ofBody (I : BodyI β) (b : β) : Res (RespVal β T) :=
  (new I (.code .ok)).map fun r => { r with msg := r.msg.setBody I b }

/-- `Clone for Response`, src/response.rs:585-605. -/
def clone (I : BodyI β) (r : RespVal β T) : RespVal β T :=
  { status := r.status, msg := ⟨r.msg.headers, I.empty⟩, version := r.version,
    trailers := { r.trailers with flag := false }, upgrade := { r.upgrade with flag := false },
    ext := Extensions.new, localAddr := r.localAddr, peerAddr := r.peerAddr }

/-- `Response::body_string` and so on, src/response.rs:275-278, 301-304, 338-341, 374-377. -/
def bodyInto {α : Type} (I : BodyI β) (into : β → α) (r : RespVal β T) : α × RespVal β T :=
  (into (r.msg.takeBody I).1, { r with msg := (r.msg.takeBody I).2 })

end RespVal

/-- Calls on a response. -/
inductive RespOp (β : Type) {κ : Type} (T : κ → Type) where
  | setStatus (c : StatusCode)
  | setVersion (v : Option Version)
  | setPeer (a : Option Str)
  | setLocal (a : Option Str)
  | setContentType (m : Mime)
  | header (o : HOp)
  | body (o : MOp β)
  | ext (o : EOp T)

namespace RespOp
variable {β : Type} {κ : Type} [DecidableEq κ] {T : κ → Type}

/-- `set_status`, `set_version`, `set_peer_addr`, `set_local_addr`, `ext_mut`, …, src/response.rs:90-147, 380-394,
441-450, 477-485, 580-582. -/
def step (I : BodyI β) (r : RespVal β T) : RespOp β T → RespVal β T
  | .setStatus c => { r with status := c }
  | .setVersion v => { r with version := v }
  | .setPeer a => { r with peerAddr := a }
  | .setLocal a => { r with localAddr := a }
  | .setContentType m => { r with msg := (r.msg.setContentType m).2 }
  | .header o => { r with msg := { r.msg with headers := o.step r.msg.headers } }
  | .body o => { r with msg := o.step I r.msg }
  | .ext o => { r with ext := o.step r.ext }

end RespOp

end HT
