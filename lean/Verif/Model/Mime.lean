import Verif.Model.Headers

/-!
Media types (src/mime). `Cow<'static, str>` is `Str`; `ParamName` and `ParamValue` are `Str`.
`Mime::sniff` is in Model/File.lean.
-/

namespace HT

/-- `Mime`, src/mime/mod.rs:32-40. -/
structure Mime where
  essence : Str
  basetype : Str
  subtype : Str
  isUtf8 : Bool
  params : List (Str × Str)
  deriving DecidableEq, Repr

namespace Mime

/-- `is_http_token_code_point`, src/mime/parse.rs:122-142. -/
def isToken (c : Char) : Bool :=
  (['!', '#', '$', '%', '&', '\'', '*', '+', '-', '.', '^', '_', '`', '|', '~'].contains c)
  || ('a' ≤ c && c ≤ 'z') || ('A' ≤ c && c ≤ 'Z') || ('0' ≤ c && c ≤ '9')

/-- `is_http_quoted_string_token_code_point`, src/mime/parse.rs:145-147. -/
def isQuotable (c : Char) : Bool :=
  c == '\t' || (' ' ≤ c && c ≤ '~') || (0x80 ≤ c.toNat && c.toNat ≤ 0xFF)

/-- `is_http_whitespace_char`, src/mime/parse.rs:150-152. -/
def isHttpWs (c : Char) : Bool := c == '\n' || c == '\r' || c == '\t' || c == ' '

/-- `trim_end_matches(is_http_whitespace_char)`. -/
def trimEndWs (s : Str) : Str := (s.reverse.dropWhile isHttpWs).reverse

/-- `trim_matches(is_http_whitespace_char)`. -/
def trimWs (s : Str) : Str := trimEndWs (s.dropWhile isHttpWs)

/-- `collect_code_point_sequence_char` and `_slice`, src/mime/parse.rs:155-162: cut before the first
delimiter. -/
def collect (delims : List Char) (s : Str) : Str × Str :=
  (s.takeWhile fun c => !delims.contains c, s.dropWhile fun c => !delims.contains c)

/-- `&s[1..]`: panics on an empty string or when the first character is longer than one byte. -/
def dropOne : Str → Res Str
  | [] => .panic
  | c :: s => if isAsciiC c then .ok s else .panic

/-- The loop of `collect_http_quoted_string`, src/mime/parse.rs:173-204, after the opening quote. The
Rust code appends whole runs up to the next quote or backslash; here one character at a time. `start` is `input` at the
beginning of the run: a run that reaches the end of the text leaves `input` there (199-202), not at the end. -/
def quotedFrom : Str → Str → Str × Str
  | start, [] => ([], start)
  | start, c :: s =>
    if c = '"' then ([], s)
    else if c = '\\' then
      match s with
      | [] => (['\\'], [])
      | d :: s => ((d :: (quotedFrom s s).1), (quotedFrom s s).2)
    else ((c :: (quotedFrom start s).1), (quotedFrom start s).2)

/-- The loop of `collect_http_quoted_string` from its beginning. -/
def quotedTail (s : Str) : Str × Str := quotedFrom s s

/-- `collect_http_quoted_string`, src/mime/parse.rs:167-205. -/
def collectQuoted (s : Str) : Res (Str × Str) := (dropOne s).map quotedTail

/-- One pass of the `while` loop, src/mime/parse.rs:48-96: `none` is `break`; otherwise the parameter
found, if any, and the remaining input. -/
def paramStep (input : Str) : Res (Option (Option (Str × Str) × Str)) :=
  (dropOne input).bind fun input =>
  let input := input.dropWhile isHttpWs
  let (name, input) := collect [';', '='] input
  let name := lower name
  if input = [] then .ok none
  else if startsWith s!!";" input then .ok (some (none, input))
  else (dropOne input).bind fun input =>
  if startsWith s!!"\"" input then
    (collectQuoted input).map fun (value, input) =>
      some (some (name, value), (collect [';'] input).2)
  else
    let (value, input) := collect [';'] input
    let value := trimEndWs value
    if value = [] then .ok (some (none, input)) else .ok (some (some (name, value), input))

/-- What is done with a parameter, src/mime/parse.rs:98-110. -/
def addParam (acc : List (Str × Str) × Bool) (p : Str × Str) : List (Str × Str) × Bool :=
  if p.1 = s!!"charset" ∧ p.2 = s!!"utf-8" then (acc.1, true)
  else if p.1 ≠ [] ∧ p.1.all isToken = true ∧ p.2.all isQuotable = true then
    if acc.1.any (fun e => e.1 == p.1) then acc else (acc.1 ++ [p], acc.2)
  else acc

theorem dropOne_length {s r : Str} (h : dropOne s = .ok r) : r.length < s.length := by
  cases s with
  | nil => cases h
  | cons c s =>
    by_cases hc : isAsciiC c = true
    · rw [dropOne, if_pos hc] at h
      cases h
      exact Nat.lt_succ_self _
    · rw [dropOne, if_neg hc] at h
      cases h

theorem length_dropWhile_le (p : Char → Bool) (s : Str) : (s.dropWhile p).length ≤ s.length :=
  (List.dropWhile_suffix p).length_le

theorem quotedFrom_length (start s : Str) : (quotedFrom start s).2.length ≤ max start.length s.length := by
  induction hn : s.length using Nat.strongRecOn generalizing start s with
  | ind n ih =>
    subst hn
    cases s with
    | nil => simp [quotedFrom]
    | cons c s =>
      unfold quotedFrom
      split
      · simp; omega
      · split
        · cases s with
          | nil => simp
          | cons d s =>
            have := ih s.length (by simp; omega) s s rfl
            simp at this ⊢; omega
        · have := ih s.length (by simp) start s rfl
          simp at this ⊢; omega

theorem quotedTail_length (s : Str) : (quotedTail s).2.length ≤ s.length := by
  have := quotedFrom_length s s
  rwa [Nat.max_self] at this

theorem paramStep_length {s r : Str} {p : Option (Str × Str)} (h : paramStep s = .ok (some (p, r))) :
    r.length < s.length := by
  unfold paramStep at h
  rw [Res.bind_eq_ok_iff] at h
  obtain ⟨i, h1, h⟩ := h
  have l1 := dropOne_length h1
  simp only at h
  have l2 := length_dropWhile_le isHttpWs i
  generalize i.dropWhile isHttpWs = j at h l2
  have l3 : (collect [';', '='] j).2.length ≤ j.length := length_dropWhile_le _ _
  generalize (collect [';', '='] j).2 = k at h l3
  split at h
  · cases h
  · split at h
    · cases h; omega
    · rw [Res.bind_eq_ok_iff] at h
      obtain ⟨m, h2, h⟩ := h
      have l4 := dropOne_length h2
      split at h
      · unfold collectQuoted at h
        cases hd : dropOne m with
        | ok d =>
          rw [hd] at h
          have l5 := dropOne_length hd
          have l6 := quotedTail_length d
          simp only [Res.map_ok, Res.ok.injEq, Option.some.injEq, Prod.mk.injEq] at h
          have l7 : (collect [';'] (quotedTail d).2).2.length ≤ (quotedTail d).2.length := length_dropWhile_le _ _
          rw [h.2] at l7
          omega
        | err e => rw [hd] at h; cases h
        | panic => rw [hd] at h; cases h
      · have l5 : (collect [';'] m).2.length ≤ m.length := length_dropWhile_le _ _
        split at h
        · simp only [Res.ok.injEq, Option.some.injEq, Prod.mk.injEq] at h
          rw [h.2] at l5; omega
        · simp only [Res.ok.injEq, Option.some.injEq, Prod.mk.injEq] at h
          rw [h.2] at l5; omega

/-- The `while` loop, src/mime/parse.rs:48-110. -/
def paramLoop (input : Str) (acc : List (Str × Str) × Bool) : Res (List (Str × Str) × Bool) :=
  if input = [] then .ok acc else
  match h : paramStep input with
  | .ok none => .ok acc
  | .ok (some (p, rest)) =>
    have := paramStep_length h
    paramLoop rest (match p with
      | some p => addParam acc p
      | none => acc)
  | .err e => .err e
  | .panic => .panic
termination_by input.length

/-- `parse`, src/mime/parse.rs:8-119. `ensure!` errors have status 500. -/
def parse (input : Str) : Res Mime :=
  let input := trimWs input
  let (basetype, input) := collect ['/'] input
  if basetype = [] then .err 500
  else if !basetype.all isToken then .err 500
  else if input = [] then .err 500
  else (dropOne input).bind fun input =>
  let (subtype, input) := collect [';'] input
  let subtype := trimEndWs subtype
  if subtype = [] then .err 500
  else if !subtype.all isToken then .err 500
  else (paramLoop input ([], false)).map fun (params, isUtf8) =>
    { essence := lower basetype ++ s!!"/" ++ lower subtype
      basetype := lower basetype
      subtype := lower subtype
      isUtf8 := isUtf8
      params := params }

/-- `EscapeMimeValue`, src/mime/parse.rs:218-224, 231-270. -/
def escape (s : Str) : Str := s.flatMap fun c => if c = '"' ∨ c = '\\' then ['\\', c] else [c]

/-- One parameter of `format`, src/mime/parse.rs:213-227. -/
def displayParam (p : Str × Str) : Str :=
  if p.2.all isToken = true ∧ p.2 ≠ [] then s!!";" ++ p.1 ++ s!!"=" ++ p.2
  else s!!";" ++ p.1 ++ s!!"=\"" ++ escape p.2 ++ s!!"\""

/-- `format` / `Display`, src/mime/parse.rs:208-229. -/
def display (m : Mime) : Str :=
  m.essence ++ (if m.isUtf8 then s!!";charset=utf-8" else []) ++ m.params.flatMap displayParam

/-- `Mime::param`, src/mime/mod.rs:107-114, for a `ParamName`. -/
def param (m : Mime) (name : Str) : Option Str :=
  if name = s!!"charset" ∧ m.isUtf8 = true then some s!!"utf-8"
  else (m.params.find? fun e => e.1 == name).map (·.2)

/-- `ParamName::from_str`, src/mime/mod.rs:233-236, and `From<&str>` (`unwrap`), 239-243. -/
def paramName (s : Str) : Res Str := if isAscii s then .ok (lower s) else .panic

/-- `Mime::param` with a string. -/
def paramStr (m : Mime) (s : Str) : Res (Option Str) := (paramName s).map m.param

/-- `Mime::remove_param`, src/mime/mod.rs:117-127, for a `ParamName`. -/
def removeParam (m : Mime) (name : Str) : Option Str × Mime :=
  if name = s!!"charset" ∧ m.isUtf8 = true then (some s!!"utf-8", { m with isUtf8 := false })
  else
    match m.params.find? fun e => e.1 == name with
    | none => (none, m)
    | some e => (some e.2, { m with params := m.params.eraseP fun e => e.1 == name })

/-- `Mime::subset_eq`, src/mime/mod.rs:149-166. -/
def subsetEq (m other : Mime) : Bool :=
  if other.basetype ≠ s!!"*" ∧ m.basetype ≠ other.basetype then false
  else if other.subtype ≠ s!!"*" ∧ m.subtype ≠ other.subtype then false
  else other.params.all fun e => match m.param e.1 with
    | some v => v == e.2
    | none => false

/-- `From<Mime> for HeaderValue`, src/headers/header_value.rs:51-57, 68-76: no ASCII check. -/
def toHeaderValue (m : Mime) : HeaderValue := m.display

/-- The constants, src/mime/constants.rs:41-51. -/
def const (base sub : Str) (utf8 : Bool) : Mime :=
  { essence := base ++ s!!"/" ++ sub, basetype := base, subtype := sub, isUtf8 := utf8, params := [] }

/-- All constants, src/mime/constants.rs:55-106. -/
def JAVASCRIPT := const s!!"text" s!!"javascript" true
def CSS := const s!!"text" s!!"css" true
def HTML := const s!!"text" s!!"html" true
def PLAIN := const s!!"text" s!!"plain" true
def XML := const s!!"application" s!!"xml" true
def RSS := const s!!"application" s!!"rss+xml" true
def ATOM := const s!!"application" s!!"atom+xml" true
def ANY := const s!!"*" s!!"*" false
def JSON := const s!!"application" s!!"json" false
def SSE := const s!!"text" s!!"event-stream" false
def BYTE_STREAM := const s!!"application" s!!"octet-stream" false
def FORM := const s!!"application" s!!"x-www-form-urlencoded" false
def MULTIPART_FORM := const s!!"multipart" s!!"form-data" false
def WASM := const s!!"application" s!!"wasm" false
def BMP := const s!!"image" s!!"bmp" false
def JPEG := const s!!"image" s!!"jpeg" false
def PNG := const s!!"image" s!!"png" false
def SVG := const s!!"image" s!!"svg+xml" false
def WEBP := const s!!"image" s!!"webp" false
def MIDI := const s!!"audio" s!!"midi" false
def MP3 := const s!!"audio" s!!"mpeg" false
def OGG := const s!!"audio" s!!"ogg" false
def OPUS := const s!!"audio" s!!"opus" false
def M4A := const s!!"audio" s!!"mp4" false
def MP4 := const s!!"video" s!!"mp4" false
def MPEG := const s!!"video" s!!"mpeg" false
def WEBM := const s!!"video" s!!"webm" false
def AVI := const s!!"video" s!!"x-msvideo" false
def ICO := const s!!"image" s!!"x-icon" false
def OTF := const s!!"font" s!!"otf" false
def TTF := const s!!"font" s!!"ttf" false
def WOFF := const s!!"font" s!!"woff" false
def WOFF2 := const s!!"font" s!!"woff2" false
def ZIP := const s!!"application" s!!"zip" false
def SEVENZIP := const s!!"application" s!!"x-7z-compressed" false

/-- Every constant once. -/
def constants : List Mime := [JAVASCRIPT, CSS, HTML, PLAIN, XML, RSS, ATOM, ANY, JSON, SSE, BYTE_STREAM, FORM,
  MULTIPART_FORM, WASM, BMP, JPEG, PNG, SVG, WEBP, MIDI, MP3, OGG, OPUS, M4A, MP4, MPEG, WEBM, AVI, ICO, OTF,
  TTF, WOFF, WOFF2, ZIP, SEVENZIP]

/-- `Mime::from_extension`, src/mime/mod.rs:54-86, as a table. -/
def extensions : List (Str × Mime) := [
  (s!!"7z", SEVENZIP), (s!!"atom", ATOM), (s!!"avi", AVI), (s!!"bin", BYTE_STREAM), (s!!"exe", BYTE_STREAM),
  (s!!"dll", BYTE_STREAM), (s!!"iso", BYTE_STREAM), (s!!"img", BYTE_STREAM), (s!!"bmp", BMP), (s!!"css", CSS),
  (s!!"html", HTML), (s!!"ico", ICO), (s!!"js", JAVASCRIPT), (s!!"mjs", JAVASCRIPT), (s!!"jsonp", JAVASCRIPT),
  (s!!"json", JSON), (s!!"m4a", M4A), (s!!"mid", MIDI), (s!!"midi", MIDI), (s!!"kar", MIDI), (s!!"mp3", MP3),
  (s!!"mp4", MP4), (s!!"mpeg", MPEG), (s!!"mpg", MPEG), (s!!"ogg", OGG), (s!!"otf", OTF), (s!!"rss", RSS),
  (s!!"svg", SVG), (s!!"svgz", SVG), (s!!"ttf", TTF), (s!!"txt", PLAIN), (s!!"wasm", WASM), (s!!"webm", WEBM),
  (s!!"webp", WEBP), (s!!"woff", WOFF), (s!!"woff2", WOFF2), (s!!"xml", XML), (s!!"zip", ZIP)]

/-- `Mime::from_extension`, src/mime/mod.rs:54-86. -/
def fromExtension (ext : Str) : Option Mime := extensions.lookup ext

end Mime

end HT
