import Verif.Model.Message
import Verif.Model.Method
import Verif.Model.StatusCode
import Verif.Model.Version

/-!
Model of `src/hyperium_http.rs`, the conversions to and from the crate `http` (0.2).

Of that crate: a method is a non-empty token text; a status is a number from 100 to 999; a header value is a
list of bytes; a header map lists its names in order, each with its values. Which names
`http::HeaderName::from_bytes` accepts is a parameter `ok` on the lower-cased text (releases of the crate
differ). Not modelled: the size limit of `http::HeaderMap` (its `append` panics beyond 24576 names).
-/

namespace HT

/-- `http::Version`. -/
inductive HVersion where
  | http09 | http10 | http11 | http2 | http3
  deriving DecidableEq, Repr

/-- `http::HeaderMap`. -/
abbrev HMap := FMap Str (List (List Byte))

namespace Hyper

/-! ### Methods, versions, statuses -/

/-- `http::Method::from_str`: any non-empty token, letters kept as they are. -/
def methodOfStr (s : Str) : Option Str := if s ≠ [] ∧ s.all Mime.isToken then some s else none

/-- `From<http::Method> for Method`, src/hyperium_http.rs:8-12. -/
def toMethod (m : Str) : Res Method :=
  match Method.fromStr m with
  | .ok m => .ok m
  | _ => .panic

/-- `From<Method> for http::Method`, src/hyperium_http.rs:14-18. -/
def ofMethod (m : Method) : Res Str := Res.unwrap (methodOfStr m.asStr)

/-- `http::StatusCode::from_u16`. -/
def statusOfU16 (n : Nat) : Option Nat := if 100 ≤ n ∧ n < 1000 then some n else none

/-- `From<http::StatusCode> for StatusCode`, src/hyperium_http.rs:20-24. -/
def toStatus (n : Nat) : Res StatusCode := Res.unwrap (StatusCode.tryFrom n)

/-- `From<StatusCode> for http::StatusCode`, src/hyperium_http.rs:26-30. -/
def ofStatus (c : StatusCode) : Res Nat := Res.unwrap (statusOfU16 c.toNat)

/-- `From<http::Version> for Version`, src/hyperium_http.rs:32-43. -/
def toVersion : HVersion → Version
  | .http09 => .http0_9
  | .http10 => .http1_0
  | .http11 => .http1_1
  | .http2 => .http2_0
  | .http3 => .http3_0

/-- `From<Version> for http::Version`, src/hyperium_http.rs:45-55. -/
def ofVersion : Version → HVersion
  | .http0_9 => .http09
  | .http1_0 => .http10
  | .http1_1 => .http11
  | .http2_0 => .http2
  | .http3_0 => .http3

/-! ### Header names and values -/

/-- `TryFrom<http::HeaderName> for HeaderName`, src/hyperium_http.rs:57-64. -/
def toName (n : Str) : Res HeaderName := HeaderName.fromBytes (utf8Encode n)

/-- `http::HeaderName::from_bytes` on the bytes of a string: letters are lowered, then the name is checked. -/
def nameOf (ok : Str → Bool) (n : Str) : Option Str := if ok (lower n) then some (lower n) else none

/-- `TryFrom<http::HeaderValue> for HeaderValue`, src/hyperium_http.rs:75-82. -/
def toValue (v : List Byte) : Res HeaderValue := HeaderValue.fromBytes v

/-- `http::HeaderValue::from_bytes`: all bytes from 32 on but 127, and tab. -/
def valueOf (v : HeaderValue) : Option (List Byte) :=
  if (utf8Encode v).all (fun b => (32 ≤ b.val && b.val != 127) || b.val == 9) then some (utf8Encode v) else none

/-! ### Header maps -/

/-- `http::HeaderMap::append`. -/
def append (m : HMap) (n : Str) (v : List Byte) : HMap := FMap.set m n ((FMap.get m n).getD [] ++ [v])

/-- `http::HeaderMap::into_iter`: the name comes with the first value of each name only. -/
def intoIter (m : HMap) : List (Option Str × List Byte) :=
  m.flatMap fun (n, vs) => match vs with
    | [] => []
    | v :: vs => (some n, v) :: vs.map fun v => (none, v)

/-- The loop of `TryFrom<http::HeaderMap> for Headers`, src/hyperium_http.rs:99-109. -/
def toHeadersLoop : List (Option Str × List Byte) → Headers → Res Headers
  | [], h => .ok h
  | (some n, v) :: rest, h =>
    (toValue v).bind fun v => (toName n).bind fun n =>
      match h.append n (.value v) with
      | (h, .ok _) => toHeadersLoop rest h
      | (_, .err e) => .err e
      | (_, .panic) => .panic
  | (none, _) :: rest, h => toHeadersLoop rest h

/-- `TryFrom<http::HeaderMap> for Headers`, src/hyperium_http.rs:93-113. -/
def toHeaders (m : HMap) : Res Headers := toHeadersLoop (intoIter m) Headers.new

/-- The inner loop, src/hyperium_http.rs:126-133 and 164-168; `conv` does the conversion of a value. -/
def ofValues (conv : HeaderValue → Res (List Byte)) (n : Str) : List HeaderValue → HMap → Res HMap
  | [], m => .ok m
  | v :: vs, m => (conv v).bind fun v => ofValues conv n vs (append m n v)

/-- The outer loop, src/hyperium_http.rs:121-137 and 160-169, in the visiting order of the collection. -/
def ofLoop (convN : Str → Res Str) (conv : HeaderValue → Res (List Byte)) : Headers → HMap → Res HMap
  | [], m => .ok m
  | (n, vs) :: rest, m =>
    (convN n).bind fun n => (ofValues conv n vs m).bind fun m => ofLoop convN conv rest m

/-- `TryFrom<Headers> for http::HeaderMap`, src/hyperium_http.rs:115-141; `new_adhoc` gives status 500. -/
def ofHeaders (ok : Str → Bool) (h : Headers) : Res HMap :=
  ofLoop (fun n => Res.ofOption 500 (nameOf ok n)) (fun v => Res.ofOption 500 (valueOf v)) h []

/-- `headers_to_hyperium_headers` into an empty map, src/hyperium_http.rs:159-170: `unwrap` instead of an
error. -/
def ofHeadersUnwrap (ok : Str → Bool) (h : Headers) : Res HMap :=
  ofLoop (fun n => Res.unwrap (nameOf ok n)) (fun v => Res.unwrap (valueOf v)) h []

/-- `hyperium_headers_to_headers`, src/hyperium_http.rs:143-157. `none` is undefined behaviour:
`String::from_utf8_unchecked` on bytes that are not UTF-8. -/
def addHeaders : List (Option Str × List Byte) → Headers → Option (Res Headers)
  | [], h => some (.ok h)
  | (name, v) :: rest, h =>
    match utf8Decode v with
    | none => none
    | some v =>
      match name with
      | none => addHeaders rest h
      | some n =>
        match h.append (lower n) (.value v) with
        | (h, .ok _) => addHeaders rest h
        | (_, .err e) => some (.err e)
        | (_, .panic) => some .panic

/-! ### Messages -/

/-- `http::Request<Body>`. -/
structure HRequest (Uri β : Type) where
  method : Str
  uri : Uri
  version : HVersion
  headers : HMap
  body : β

/-- `http::Response<Body>`. -/
structure HResponse (β : Type) where
  status : Nat
  version : HVersion
  headers : HMap
  body : β

/-- The fields of `Request` that take part. -/
structure Req (Url β : Type) where
  method : Method
  url : Url
  version : Option Version
  msg : Msg β

/-- The fields of `Response` that take part. -/
structure Resp (β : Type) where
  status : StatusCode
  version : Option Version
  msg : Msg β

variable {Uri Url β : Type}

/-- `TryFrom<http::Request<Body>> for Request`, src/hyperium_http.rs:182-195; `parse` is `from_uri_to_url`
(173-175), whose error gets status 500. -/
def toRequest (I : BodyI β) (parse : Uri → Option Url) (r : HRequest Uri β) : Option (Res (Req Url β)) :=
  match toMethod r.method with
  | .ok method =>
    match parse r.uri with
    | none => some (.err 500)
    | some url =>
      let msg := (Msg.new I).setBody I r.body
      (addHeaders (intoIter r.headers) msg.headers).map fun h => h.map fun h =>
        ⟨method, url, some (toVersion r.version), { msg with headers := h }⟩
  | .err e => some (.err e)
  | .panic => some .panic

/-- `TryFrom<http::Response<Body>> for Response`, src/hyperium_http.rs:210-220. -/
def toResponse (I : BodyI β) (r : HResponse β) : Option (Res (Resp β)) :=
  match toStatus r.status with
  | .ok status =>
    let msg := (Msg.new I).setBody I r.body
    (addHeaders (intoIter r.headers) msg.headers).map fun h => h.map fun h =>
      ⟨status, some (toVersion r.version), { msg with headers := h }⟩
  | .err e => some (.err e)
  | .panic => some .panic

/-- `From<Request> for http::Request<Body>`, src/hyperium_http.rs:197-208; `display` is `from_url_to_uri`
(178-180), whose `unwrap` panics. Without a version the crate's default, HTTP/1.1, is used. -/
def ofRequest (ok : Str → Bool) (display : Url → Option Uri) (r : Req Url β) : Res (HRequest Uri β) :=
  (ofMethod r.method).bind fun method =>
  (Res.unwrap (display r.url)).bind fun uri =>
  (ofHeadersUnwrap ok r.msg.headers).bind fun headers =>
    .ok ⟨method, uri, (r.version.map ofVersion).getD .http11, headers, r.msg.body⟩

/-- `From<Response> for http::Response<Body>`, src/hyperium_http.rs:222-233: the number is checked by the
builder, `unwrap` panics. -/
def ofResponse (ok : Str → Bool) (r : Resp β) : Res (HResponse β) :=
  (Res.unwrap (statusOfU16 r.status.toNat)).bind fun status =>
  (ofHeadersUnwrap ok r.msg.headers).bind fun headers =>
    .ok ⟨status, (r.version.map ofVersion).getD .http11, headers, r.msg.body⟩

end Hyper
end HT
