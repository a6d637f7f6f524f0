import Verif.Model.StatusCode
import Verif.Model.Version
import Verif.Model.Method

/-! Registered HTTP methods, status numbers and protocol versions, written independently of the
model's tables. -/

namespace HT.Spec

/-- Method names of the IANA registry (2020), in alphabetical order. -/
def methodNames : List Str := [
  s!!"ACL", s!!"BASELINE-CONTROL", s!!"BIND", s!!"CHECKIN", s!!"CHECKOUT", s!!"CONNECT", s!!"COPY",
  s!!"DELETE", s!!"GET", s!!"HEAD", s!!"LABEL", s!!"LINK", s!!"LOCK", s!!"MERGE", s!!"MKACTIVITY",
  s!!"MKCALENDAR", s!!"MKCOL", s!!"MKREDIRECTREF", s!!"MKWORKSPACE", s!!"MOVE", s!!"OPTIONS",
  s!!"ORDERPATCH", s!!"PATCH", s!!"POST", s!!"PRI", s!!"PROPFIND", s!!"PROPPATCH", s!!"PUT",
  s!!"REBIND", s!!"REPORT", s!!"SEARCH", s!!"TRACE", s!!"UNBIND", s!!"UNCHECKOUT", s!!"UNLINK",
  s!!"UNLOCK", s!!"UPDATE", s!!"UPDATEREDIRECTREF", s!!"VERSION-CONTROL"]

/-- The names registered as safe. -/
def safeNames : List Str :=
  [s!!"GET", s!!"HEAD", s!!"OPTIONS", s!!"PRI", s!!"PROPFIND", s!!"REPORT", s!!"SEARCH", s!!"TRACE"]

/-- The supported status numbers, by ranges. -/
def statusNumber (n : Nat) : Bool :=
  n == 100 || n == 101 || n == 103
  || (200 ≤ n && n ≤ 207) || n == 226
  || (300 ≤ n && n ≤ 304) || n == 307 || n == 308
  || (400 ≤ n && n ≤ 418) || (421 ≤ n && n ≤ 426) || n == 428 || n == 429 || n == 431 || n == 451
  || (500 ≤ n && n ≤ 508) || n == 510 || n == 511

/-- Status codes and reason phrases of the IANA registry (2020), and that of RFC 2324. -/
def registeredReasons : List (Nat × Str) := [
  (100, s!!"Continue"), (101, s!!"Switching Protocols"), (102, s!!"Processing"), (103, s!!"Early Hints"),
  (200, s!!"OK"), (201, s!!"Created"), (202, s!!"Accepted"), (203, s!!"Non-Authoritative Information"),
  (204, s!!"No Content"), (205, s!!"Reset Content"), (206, s!!"Partial Content"), (207, s!!"Multi-Status"),
  (208, s!!"Already Reported"), (226, s!!"IM Used"), (300, s!!"Multiple Choices"),
  (301, s!!"Moved Permanently"), (302, s!!"Found"), (303, s!!"See Other"), (304, s!!"Not Modified"),
  (305, s!!"Use Proxy"), (307, s!!"Temporary Redirect"), (308, s!!"Permanent Redirect"),
  (400, s!!"Bad Request"), (401, s!!"Unauthorized"), (402, s!!"Payment Required"), (403, s!!"Forbidden"),
  (404, s!!"Not Found"), (405, s!!"Method Not Allowed"), (406, s!!"Not Acceptable"),
  (407, s!!"Proxy Authentication Required"), (408, s!!"Request Timeout"), (409, s!!"Conflict"),
  (410, s!!"Gone"), (411, s!!"Length Required"), (412, s!!"Precondition Failed"),
  (413, s!!"Payload Too Large"), (414, s!!"URI Too Long"), (415, s!!"Unsupported Media Type"),
  (416, s!!"Range Not Satisfiable"), (417, s!!"Expectation Failed"), (418, s!!"I'm a teapot"),
  (421, s!!"Misdirected Request"), (422, s!!"Unprocessable Entity"), (423, s!!"Locked"),
  (424, s!!"Failed Dependency"), (425, s!!"Too Early"), (426, s!!"Upgrade Required"),
  (428, s!!"Precondition Required"), (429, s!!"Too Many Requests"),
  (431, s!!"Request Header Fields Too Large"), (451, s!!"Unavailable For Legal Reasons"),
  (500, s!!"Internal Server Error"), (501, s!!"Not Implemented"), (502, s!!"Bad Gateway"),
  (503, s!!"Service Unavailable"), (504, s!!"Gateway Timeout"), (505, s!!"HTTP Version Not Supported"),
  (506, s!!"Variant Also Negotiates"), (507, s!!"Insufficient Storage"), (508, s!!"Loop Detected"),
  (510, s!!"Not Extended"), (511, s!!"Network Authentication Required")]

/-- Protocol version as (major, minor). -/
def versionNumber : Version → Nat × Nat
  | .http0_9 => (0, 9)
  | .http1_0 => (1, 0)
  | .http1_1 => (1, 1)
  | .http2_0 => (2, 0)
  | .http3_0 => (3, 0)

end HT.Spec
