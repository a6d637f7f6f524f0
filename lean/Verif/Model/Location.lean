import Verif.Model.Simple
import Verif.Model.Mime

/-!
Model of the headers that hold one URL, `src/content/content_location.rs`, `src/other/referer.rs`,
`src/other/source_map.rs`, and of `src/content/content_type.rs`. The crate `url` is a parameter.
-/

namespace HT

/-- What is used of the crate `url`: `Url::parse` and `Url::join` (`none` for an error) and `Display`. -/
structure UrlLib (Url : Type) where
  parse : Str → Option Url
  join : Url → Str → Option Url
  display : Url → Str

/-! ### Content-Location -/
namespace ContentLocation
variable {Url : Type}

/-- `CONTENT_LOCATION`, src/headers/constants.rs:10. -/
def name : HeaderName := s!!"content-location"

/-- `ContentLocation::from_headers`, src/content/content_location.rs:45-65. `base` is the outcome of
`base_url.try_into()`. -/
def fromHeaders (L : UrlLib Url) (base : Option Url) (h : Headers) : Res (Option Url) :=
  readLast h name fun v =>
    match base with
    | none => .err 400
    | some b => (Res.ofOption 500 (L.join b (trim v))).status 400

/-- `ContentLocation::set_location`, src/content/content_location.rs:73-81; `l` is the outcome of
`location.try_into()`. -/
def setLocation (_url : Url) (l : Option Url) : Res Url :=
  match l with
  | some u => .ok u
  | none => .panic

/-- `ContentLocation::header_value`, src/content/content_location.rs:88-93. -/
def value (L : UrlLib Url) (u : Url) : Res HeaderValue := .ok (L.display u)

end ContentLocation

/-! ### Referer and SourceMap -/

/-- The two headers whose files agree line by line. -/
inductive RefHeader where
  | referer
  | sourceMap
  deriving DecidableEq, Repr

namespace RefHeader
variable {Url : Type}

/-- `REFERER` and `SOURCE_MAP`, src/headers/constants.rs:142, 154. -/
def name : RefHeader → HeaderName
  | referer => s!!"referer"
  | sourceMap => s!!"sourcemap"

/-- `Referer::from_headers`, src/other/referer.rs:48-71, and `SourceMap::from_headers`,
src/other/source_map.rs:45-68. -/
def fromHeaders (k : RefHeader) (L : UrlLib Url) (base : Option Url) (h : Headers) : Res (Option Url) :=
  readLast h k.name fun v =>
    match L.parse v with
    | some u => .ok u
    | none =>
      match base with
      | some b => (Res.ofOption 500 (L.join b (trim v))).status 500
      | none => .err 500

/-- `set_location`, src/other/referer.rs:79-86, src/other/source_map.rs:76-83: the new value and whether the
call succeeded. -/
def setLocation (url : Url) (l : Option Url) : Url × Bool :=
  match l with
  | some u => (u, true)
  | none => (url, false)

/-- `header_value`, src/other/referer.rs:94-99, src/other/source_map.rs:91-96. -/
def value (L : UrlLib Url) (u : Url) : Res HeaderValue := .ok (L.display u)

end RefHeader

/-! ### Content-Type -/
namespace ContentType

/-- `CONTENT_TYPE`, src/headers/constants.rs:16. -/
def name : HeaderName := s!!"content-type"

/-- `ContentType::new`, src/content/content_type.rs:42-52, for a text. -/
def new (s : Str) : Res Mime :=
  match Mime.parse s with
  | .ok m => .ok m
  | _ => .panic

/-- `ContentType::from_headers`, src/content/content_type.rs:60-75. -/
def fromHeaders (h : Headers) : Res (Option Mime) :=
  readLast h name fun v =>
    match Mime.parse v with
    | .ok m => .ok m
    | .err _ => .err 400
    | .panic => .panic

/-- `ContentType::header_value`, src/content/content_type.rs:82-86. -/
def value (m : Mime) : Res HeaderValue := .ok m.display

end ContentType

end HT
