import Verif.Model.Headers
import Verif.Model.Mime
import Verif.Model.Simple

/-!
Requests and responses: the part that connects the body with the `Content-Type` header, and the host and
remote address of a request. `Request` and `Response` have the same code for the former.

A body is an opaque value; only its media type (`mime`) and the empty body matter here.
-/

namespace HT

/-- What a message needs of bodies: `Body::mime` (src/body.rs:477-479) and `Body::empty` (79-86). -/
structure BodyI (β : Type) where
  mime : β → Option Mime
  empty : β

/-- Headers and body of a `Request` (src/request.rs:31-44) or `Response` (src/response.rs:37-52). -/
structure Msg (β : Type) where
  headers : Headers
  body : β

/-- `headers::CONTENT_TYPE`, src/headers/constants.rs. -/
def CONTENT_TYPE : HeaderName := s!!"content-type"

namespace Msg

variable {β : Type}

/-- `Request::new` / `Response::new`: no headers, empty body. src/request.rs:49-69, src/response.rs:57-82. -/
def new (I : BodyI β) : Msg β := ⟨Headers.new, I.empty⟩

/-- `set_content_type`, src/request.rs:475-480, src/response.rs:380-385. The `unwrap` there cannot fail: a
`HeaderValue` is stored without a check, so the second case does not occur. -/
def setContentType (m : Msg β) (mime : Mime) : Option HeaderValues × Msg β :=
  match m.headers.insert CONTENT_TYPE (.value mime.toHeaderValue) with
  | (h, .ok old) => (old, { m with headers := h })
  | (h, _) => (none, { m with headers := h })

/-- `copy_content_type_from_body`, src/request.rs:483-489, src/response.rs:388-394. -/
def copyContentType (I : BodyI β) (m : Msg β) : Msg β :=
  match m.headers.get CONTENT_TYPE with
  | some _ => m
  | none =>
    match I.mime m.body with
    | some mime => (m.setContentType mime).2
    | none => m

/-- `replace_body`, src/request.rs:224-228, src/response.rs:191-195. -/
def replaceBody (I : BodyI β) (m : Msg β) (b : β) : β × Msg β :=
  (m.body, copyContentType I { m with body := b })

/-- `set_body`, src/request.rs:199-201, src/response.rs:166-168. -/
def setBody (I : BodyI β) (m : Msg β) (b : β) : Msg β := (m.replaceBody I b).2

/-- `swap_body`, src/request.rs:251-254, src/response.rs:220-223: the caller's body afterwards, and the
message. -/
def swapBody (I : BodyI β) (m : Msg β) (b : β) : β × Msg β :=
  (m.body, copyContentType I { m with body := b })

/-- `take_body`, src/request.rs:280-282, src/response.rs:249-251. -/
def takeBody (I : BodyI β) (m : Msg β) : β × Msg β := m.replaceBody I I.empty

/-- `content_type`, src/request.rs:492-494, src/response.rs:397-399. -/
def contentType (m : Msg β) : Res (Option Mime) :=
  match m.headers.get CONTENT_TYPE with
  | none => .ok none
  | some vs => (HeaderValues.last vs).bind fun v =>
    match Mime.parse v with
    | .ok mime => .ok (some mime)
    | .err _ => .ok none
    | .panic => .panic

end Msg

/-- Body operations of a message. -/
inductive MOp (β : Type) where
  | set (b : β)
  | replace (b : β)
  | swap (b : β)
  | take

/-- The message after an operation. -/
def MOp.step {β : Type} (I : BodyI β) (m : Msg β) : MOp β → Msg β
  | .set b => m.setBody I b
  | .replace b => (m.replaceBody I b).2
  | .swap b => (m.swapBody I b).2
  | .take => (m.takeBody I).2

/-! ### Host and remote address -/

namespace Request

/-- `self.header(name)` followed by `as_str` through `Deref`, which is the first value,
src/headers/header_values.rs:150-156. -/
def headerFirst (h : Headers) (name : HeaderName) : Res (Option Str) :=
  match h.get name with
  | none => .ok none
  | some vs => (HeaderValues.first vs).map some

/-- The closure of `forwarded_header_part`, src/request.rs:127-132. -/
def partOf (part : Str) (kv : Str) : Option Str :=
  match split '=' kv with
  | [k, v] => if eqIgnoreCase k part then some v else none
  | _ => none

/-- `forwarded_header_part`, src/request.rs:124-135. -/
def forwardedPart (h : Headers) (part : Str) : Res (Option Str) :=
  (headerFirst h s!!"forwarded").map fun o => o.bind fun s => (split ';' s).findSome? (partOf part)

/-- `.split(',').next()`. -/
def firstElement (s : Str) : Option Str := (split ',' s).head?

/-- `or_else` on options whose right side is only evaluated when needed. -/
def orElse (a : Res (Option Str)) (b : Unit → Res (Option Str)) : Res (Option Str) :=
  a.bind fun
    | some s => .ok (some s)
    | none => b ()

/-- `forwarded_for`, src/request.rs:137-142. -/
def forwardedFor (h : Headers) : Res (Option Str) :=
  orElse (forwardedPart h s!!"for") fun _ =>
    (headerFirst h s!!"x-forwarded-for").map fun o => o.bind firstElement

/-- `remote`, src/request.rs:103-105. -/
def remote (h : Headers) (peer : Option Str) : Res (Option Str) :=
  orElse (forwardedFor h) fun _ => .ok peer

/-- `host`, src/request.rs:114-122; `urlHost` is `self.url().host_str()`. -/
def host (h : Headers) (urlHost : Option Str) : Res (Option Str) :=
  orElse (orElse (orElse (forwardedPart h s!!"host") fun _ =>
    (headerFirst h s!!"x-forwarded-host").map fun o => o.bind firstElement) fun _ =>
    headerFirst h s!!"host") fun _ => .ok urlHost

end Request

end HT
