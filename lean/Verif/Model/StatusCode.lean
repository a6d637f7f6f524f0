import Verif.Core.Num

/-! Model of `src/status_code.rs`. -/

namespace HT

/-- `StatusCode`, src/status_code.rs:9-420. -/
inductive StatusCode where
  | continue
  | switchingProtocols
  | earlyHints
  | ok
  | created
  | accepted
  | nonAuthoritativeInformation
  | noContent
  | resetContent
  | partialContent
  | multiStatus
  | imUsed
  | multipleChoice
  | movedPermanently
  | found
  | seeOther
  | notModified
  | temporaryRedirect
  | permanentRedirect
  | badRequest
  | unauthorized
  | paymentRequired
  | forbidden
  | notFound
  | methodNotAllowed
  | notAcceptable
  | proxyAuthenticationRequired
  | requestTimeout
  | conflict
  | gone
  | lengthRequired
  | preconditionFailed
  | payloadTooLarge
  | uriTooLong
  | unsupportedMediaType
  | requestedRangeNotSatisfiable
  | expectationFailed
  | imATeapot
  | misdirectedRequest
  | unprocessableEntity
  | locked
  | failedDependency
  | tooEarly
  | upgradeRequired
  | preconditionRequired
  | tooManyRequests
  | requestHeaderFieldsTooLarge
  | unavailableForLegalReasons
  | internalServerError
  | notImplemented
  | badGateway
  | serviceUnavailable
  | gatewayTimeout
  | httpVersionNotSupported
  | variantAlsoNegotiates
  | insufficientStorage
  | loopDetected
  | notExtended
  | networkAuthenticationRequired
  deriving DecidableEq, Repr

namespace StatusCode

/-- Every status code (the variants of the enum). -/
def all : List StatusCode := [
    .continue, .switchingProtocols, .earlyHints, .ok, .created, .accepted,
    .nonAuthoritativeInformation, .noContent, .resetContent, .partialContent, .multiStatus,
    .imUsed, .multipleChoice, .movedPermanently, .found, .seeOther, .notModified,
    .temporaryRedirect, .permanentRedirect, .badRequest, .unauthorized, .paymentRequired,
    .forbidden, .notFound, .methodNotAllowed, .notAcceptable, .proxyAuthenticationRequired,
    .requestTimeout, .conflict, .gone, .lengthRequired, .preconditionFailed, .payloadTooLarge,
    .uriTooLong, .unsupportedMediaType, .requestedRangeNotSatisfiable, .expectationFailed,
    .imATeapot, .misdirectedRequest, .unprocessableEntity, .locked, .failedDependency, .tooEarly,
    .upgradeRequired, .preconditionRequired, .tooManyRequests, .requestHeaderFieldsTooLarge,
    .unavailableForLegalReasons, .internalServerError, .notImplemented, .badGateway,
    .serviceUnavailable, .gatewayTimeout, .httpVersionNotSupported, .variantAlsoNegotiates,
    .insufficientStorage, .loopDetected, .notExtended, .networkAuthenticationRequired]

/-- `code as u16`, `From<StatusCode> for u16`: the discriminants, src/status_code.rs:9-420,
618-622. -/
def toNat : StatusCode → Nat
  | .continue => 100
  | .switchingProtocols => 101
  | .earlyHints => 103
  | .ok => 200
  | .created => 201
  | .accepted => 202
  | .nonAuthoritativeInformation => 203
  | .noContent => 204
  | .resetContent => 205
  | .partialContent => 206
  | .multiStatus => 207
  | .imUsed => 226
  | .multipleChoice => 300
  | .movedPermanently => 301
  | .found => 302
  | .seeOther => 303
  | .notModified => 304
  | .temporaryRedirect => 307
  | .permanentRedirect => 308
  | .badRequest => 400
  | .unauthorized => 401
  | .paymentRequired => 402
  | .forbidden => 403
  | .notFound => 404
  | .methodNotAllowed => 405
  | .notAcceptable => 406
  | .proxyAuthenticationRequired => 407
  | .requestTimeout => 408
  | .conflict => 409
  | .gone => 410
  | .lengthRequired => 411
  | .preconditionFailed => 412
  | .payloadTooLarge => 413
  | .uriTooLong => 414
  | .unsupportedMediaType => 415
  | .requestedRangeNotSatisfiable => 416
  | .expectationFailed => 417
  | .imATeapot => 418
  | .misdirectedRequest => 421
  | .unprocessableEntity => 422
  | .locked => 423
  | .failedDependency => 424
  | .tooEarly => 425
  | .upgradeRequired => 426
  | .preconditionRequired => 428
  | .tooManyRequests => 429
  | .requestHeaderFieldsTooLarge => 431
  | .unavailableForLegalReasons => 451
  | .internalServerError => 500
  | .notImplemented => 501
  | .badGateway => 502
  | .serviceUnavailable => 503
  | .gatewayTimeout => 504
  | .httpVersionNotSupported => 505
  | .variantAlsoNegotiates => 506
  | .insufficientStorage => 507
  | .loopDetected => 508
  | .notExtended => 510
  | .networkAuthenticationRequired => 511

/-- `TryFrom<u16>`, src/status_code.rs:624-693 (`none` = the `bail!` arm, status 500). -/
def tryFrom : Nat → Option StatusCode
  | 100 => some .continue
  | 101 => some .switchingProtocols
  | 103 => some .earlyHints
  | 200 => some .ok
  | 201 => some .created
  | 202 => some .accepted
  | 203 => some .nonAuthoritativeInformation
  | 204 => some .noContent
  | 205 => some .resetContent
  | 206 => some .partialContent
  | 207 => some .multiStatus
  | 226 => some .imUsed
  | 300 => some .multipleChoice
  | 301 => some .movedPermanently
  | 302 => some .found
  | 303 => some .seeOther
  | 304 => some .notModified
  | 307 => some .temporaryRedirect
  | 308 => some .permanentRedirect
  | 400 => some .badRequest
  | 401 => some .unauthorized
  | 402 => some .paymentRequired
  | 403 => some .forbidden
  | 404 => some .notFound
  | 405 => some .methodNotAllowed
  | 406 => some .notAcceptable
  | 407 => some .proxyAuthenticationRequired
  | 408 => some .requestTimeout
  | 409 => some .conflict
  | 410 => some .gone
  | 411 => some .lengthRequired
  | 412 => some .preconditionFailed
  | 413 => some .payloadTooLarge
  | 414 => some .uriTooLong
  | 415 => some .unsupportedMediaType
  | 416 => some .requestedRangeNotSatisfiable
  | 417 => some .expectationFailed
  | 418 => some .imATeapot
  | 421 => some .misdirectedRequest
  | 422 => some .unprocessableEntity
  | 423 => some .locked
  | 424 => some .failedDependency
  | 425 => some .tooEarly
  | 426 => some .upgradeRequired
  | 428 => some .preconditionRequired
  | 429 => some .tooManyRequests
  | 431 => some .requestHeaderFieldsTooLarge
  | 451 => some .unavailableForLegalReasons
  | 500 => some .internalServerError
  | 501 => some .notImplemented
  | 502 => some .badGateway
  | 503 => some .serviceUnavailable
  | 504 => some .gatewayTimeout
  | 505 => some .httpVersionNotSupported
  | 506 => some .variantAlsoNegotiates
  | 507 => some .insufficientStorage
  | 508 => some .loopDetected
  | 510 => some .notExtended
  | 511 => some .networkAuthenticationRequired
  | _ => none

/-- `is_informational`, src/status_code.rs:427-430. -/
def isInformational (c : StatusCode) : Bool := 100 ≤ c.toNat && c.toNat < 200
/-- `is_success`, src/status_code.rs:436-439. -/
def isSuccess (c : StatusCode) : Bool := 200 ≤ c.toNat && c.toNat < 300
/-- `is_redirection`, src/status_code.rs:445-448. -/
def isRedirection (c : StatusCode) : Bool := 300 ≤ c.toNat && c.toNat < 400
/-- `is_client_error`, src/status_code.rs:454-457. -/
def isClientError (c : StatusCode) : Bool := 400 ≤ c.toNat && c.toNat < 500
/-- `is_server_error`, src/status_code.rs:463-466. -/
def isServerError (c : StatusCode) : Bool := 500 ≤ c.toNat && c.toNat < 600

/-- `canonical_reason`, src/status_code.rs:469-531. -/
def reason : StatusCode → Str
  | .continue => s!!"Continue"
  | .switchingProtocols => s!!"Switching Protocols"
  | .earlyHints => s!!"Early Hints"
  | .ok => s!!"OK"
  | .created => s!!"Created"
  | .accepted => s!!"Accepted"
  | .nonAuthoritativeInformation => s!!"Non Authoritative Information"
  | .noContent => s!!"No Content"
  | .resetContent => s!!"Reset Content"
  | .partialContent => s!!"Partial Content"
  | .multiStatus => s!!"Multi-Status"
  | .imUsed => s!!"Im Used"
  | .multipleChoice => s!!"Multiple Choice"
  | .movedPermanently => s!!"Moved Permanently"
  | .found => s!!"Found"
  | .seeOther => s!!"See Other"
  | .notModified => s!!"Not Modified"
  | .temporaryRedirect => s!!"Temporary Redirect"
  | .permanentRedirect => s!!"Permanent Redirect"
  | .badRequest => s!!"Bad Request"
  | .unauthorized => s!!"Unauthorized"
  | .paymentRequired => s!!"Payment Required"
  | .forbidden => s!!"Forbidden"
  | .notFound => s!!"Not Found"
  | .methodNotAllowed => s!!"Method Not Allowed"
  | .notAcceptable => s!!"Not Acceptable"
  | .proxyAuthenticationRequired => s!!"Proxy Authentication Required"
  | .requestTimeout => s!!"Request Timeout"
  | .conflict => s!!"Conflict"
  | .gone => s!!"Gone"
  | .lengthRequired => s!!"Length Required"
  | .preconditionFailed => s!!"Precondition Failed"
  | .payloadTooLarge => s!!"Payload Too Large"
  | .uriTooLong => s!!"URI Too Long"
  | .unsupportedMediaType => s!!"Unsupported Media Type"
  | .requestedRangeNotSatisfiable => s!!"Requested Range Not Satisfiable"
  | .expectationFailed => s!!"Expectation Failed"
  | .imATeapot => s!!"I'm a teapot"
  | .misdirectedRequest => s!!"Misdirected Request"
  | .unprocessableEntity => s!!"Unprocessable Entity"
  | .locked => s!!"Locked"
  | .failedDependency => s!!"Failed Dependency"
  | .tooEarly => s!!"Too Early"
  | .upgradeRequired => s!!"Upgrade Required"
  | .preconditionRequired => s!!"Precondition Required"
  | .tooManyRequests => s!!"Too Many Requests"
  | .requestHeaderFieldsTooLarge => s!!"Request Header Fields Too Large"
  | .unavailableForLegalReasons => s!!"Unavailable For Legal Reasons"
  | .internalServerError => s!!"Internal Server Error"
  | .notImplemented => s!!"Not Implemented"
  | .badGateway => s!!"Bad Gateway"
  | .serviceUnavailable => s!!"Service Unavailable"
  | .gatewayTimeout => s!!"Gateway Timeout"
  | .httpVersionNotSupported => s!!"HTTP Version Not Supported"
  | .variantAlsoNegotiates => s!!"Variant Also Negotiates"
  | .insufficientStorage => s!!"Insufficient Storage"
  | .loopDetected => s!!"Loop Detected"
  | .notExtended => s!!"Not Extended"
  | .networkAuthenticationRequired => s!!"Network Authentication Required"

/-- `Display` and `Debug`: `"{}: {}"`, src/status_code.rs:708-718. -/
def display (c : StatusCode) : Str := dec c.toNat ++ s!!": " ++ c.reason

/-- `PartialEq<u16>` in both directions, src/status_code.rs:696-706. -/
def eqU16 (c : StatusCode) (n : Nat) : Bool := c.toNat == n

/-- `Serialize`, src/status_code.rs:541-549. -/
def serialize (c : StatusCode) : Nat := c.toNat

/-- `v as u16` for any Rust integer `v`: two's complement truncation. -/
def asU16 (v : Int) : Nat := (v % 65536).toNat

/-- The serde visitor, src/status_code.rs:551-608: `visit_i16/i32/i64/u32/u64` truncate with
`as u16` and call `visit_u16`; the other integer widths are forwarded by serde to the 64-bit ones.
`none` is a deserialisation error. -/
def deserialize (v : Int) : Option StatusCode := tryFrom (asU16 v)

end StatusCode
end HT
