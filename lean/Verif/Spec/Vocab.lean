import Verif.Model.Security
import Verif.Model.Mime
import Verif.Model.Lists

/-! Vocabularies fixed by the standards: cache directives, security policies, file extensions. -/

namespace HT.Spec

/-- The word a directive starts with: up to the equals sign, without case and surrounding blanks. -/
def directiveWord (t : Str) : Str := (lower (trim t)).takeWhile (· ≠ '=')

/-- Directives for requests, RFC 7234 section 5.2.1. -/
def requestWords : List Str :=
  [s!!"max-age", s!!"max-stale", s!!"min-fresh", s!!"no-cache", s!!"no-store", s!!"no-transform",
   s!!"only-if-cached"]

/-- Directives for responses, RFC 7234 section 5.2.2, RFC 5861 and RFC 8246. -/
def responseWords : List Str :=
  [s!!"must-revalidate", s!!"no-cache", s!!"no-store", s!!"no-transform", s!!"public", s!!"private",
   s!!"proxy-revalidate", s!!"max-age", s!!"s-maxage", s!!"stale-while-revalidate", s!!"stale-if-error",
   s!!"immutable"]

/-- The names of the building methods as they are in the interface. -/
def methodWord : CspMethod → Str
  | .baseUri => s!!"base_uri" | .connectSrc => s!!"connect_src" | .defaultSrc => s!!"default_src"
  | .fontSrc => s!!"font_src" | .formAction => s!!"form_action" | .frameAncestors => s!!"frame_ancestors"
  | .frameSrc => s!!"frame_src" | .imgSrc => s!!"img_src" | .mediaSrc => s!!"media_src"
  | .objectSrc => s!!"object_src" | .pluginTypes => s!!"plugin_types" | .requireSriFor => s!!"require_sri_for"
  | .reportUri => s!!"report_uri" | .sandbox => s!!"sandbox" | .scriptSrc => s!!"script_src"
  | .styleSrc => s!!"style_src" | .workerSrc => s!!"worker_src"

/-- The directive a method is named after. -/
def hyphens (s : Str) : Str := s.map fun c => if c = '_' then '-' else c

/-- The keywords of the standard, and how each kind is written: keywords in quotes, schemes with a colon. -/
def quoted (s : Str) : Str := s!!"'" ++ s ++ s!!"'"
def scheme (s : Str) : Str := s ++ s!!":"
def sourceText : Source → Str
  | .sameOrigin => quoted s!!"self"
  | .src => quoted s!!"src"
  | .none => quoted s!!"none"
  | .unsafeInline => quoted s!!"unsafe-inline"
  | .unsafeEval => quoted s!!"unsafe-eval"
  | .strictDynamic => quoted s!!"strict-dynamic"
  | .data => scheme s!!"data"
  | .mediastream => scheme s!!"mediastream"
  | .https => scheme s!!"https"
  | .blob => scheme s!!"blob"
  | .filesystem => scheme s!!"filesystem"
  | .wildcard => s!!"*"

/-- The media type of each known file extension, as text. -/
def extensionTypes : List (Str × Str) :=
  [(s!!"7z", s!!"application/x-7z-compressed"), (s!!"atom", s!!"application/atom+xml;charset=utf-8"),
   (s!!"avi", s!!"video/x-msvideo"), (s!!"bin", s!!"application/octet-stream"),
   (s!!"exe", s!!"application/octet-stream"), (s!!"dll", s!!"application/octet-stream"),
   (s!!"iso", s!!"application/octet-stream"), (s!!"img", s!!"application/octet-stream"),
   (s!!"bmp", s!!"image/bmp"), (s!!"css", s!!"text/css;charset=utf-8"), (s!!"html", s!!"text/html;charset=utf-8"),
   (s!!"ico", s!!"image/x-icon"), (s!!"js", s!!"text/javascript;charset=utf-8"),
   (s!!"mjs", s!!"text/javascript;charset=utf-8"), (s!!"jsonp", s!!"text/javascript;charset=utf-8"),
   (s!!"json", s!!"application/json"), (s!!"m4a", s!!"audio/mp4"), (s!!"mid", s!!"audio/midi"),
   (s!!"midi", s!!"audio/midi"), (s!!"kar", s!!"audio/midi"), (s!!"mp3", s!!"audio/mpeg"), (s!!"mp4", s!!"video/mp4"),
   (s!!"mpeg", s!!"video/mpeg"), (s!!"mpg", s!!"video/mpeg"), (s!!"ogg", s!!"audio/ogg"), (s!!"otf", s!!"font/otf"),
   (s!!"rss", s!!"application/rss+xml;charset=utf-8"), (s!!"svg", s!!"image/svg+xml"), (s!!"svgz", s!!"image/svg+xml"),
   (s!!"ttf", s!!"font/ttf"), (s!!"txt", s!!"text/plain;charset=utf-8"), (s!!"wasm", s!!"application/wasm"),
   (s!!"webm", s!!"video/webm"), (s!!"webp", s!!"image/webp"), (s!!"woff", s!!"font/woff"),
   (s!!"woff2", s!!"font/woff2"), (s!!"xml", s!!"application/xml;charset=utf-8"), (s!!"zip", s!!"application/zip")]

/-- The texts of the remaining constants. -/
def otherTypes : List Str :=
  [s!!"*/*", s!!"text/event-stream", s!!"application/x-www-form-urlencoded", s!!"multipart/form-data",
   s!!"image/jpeg", s!!"image/png", s!!"audio/opus"]

end HT.Spec
