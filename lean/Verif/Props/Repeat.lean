import Verif.Spec.Repeat
import Verif.Props.Clean
import Verif.Props.Location

/-! Headers sent more than once: C95. -/

namespace HT
open Spec

theorem lastDecides_readLast {α : Type} (n : HeaderName) (f : HeaderValue → Res α) :
    LastDecides n (fun h => readLast h n f) := by
  intro h h' vs vs' v hv hv'
  show readLast h n f = readLast h' n f
  rw [readLast_snoc hv, readLast_snoc hv']

theorem repeatsAlike_of {α : Type} {n : HeaderName} {read : Headers → Res α} (h : LastDecides n read) :
    RepeatsAlike n read := by
  intro a b k v ha hb
  exact h a b (List.replicate k v) [] v (by rw [ha, List.replicate_succ']) hb

theorem lastDecides_basic : LastDecides s!!"authorization" BasicAuth.fromHeaders := by
  intro h h' vs vs' v hv hv'
  have e : Authorization.fromHeaders h = Authorization.fromHeaders h' :=
    lastDecides_readLast Authorization.NAME Authorization.parse h h' vs vs' v hv hv'
  unfold BasicAuth.fromHeaders
  rw [e]

/-- Of a single-valued header that was sent several times the last value counts, and no other. (Missing: the codings, see
`C95_violated_codings`, and the trace context, see `C95_violated_trace`.) -/
theorem C95_last_partial {Url : Type} (L : UrlLib Url) (base : Option Url) :
    LastDecides s!!"content-length" ContentLength.fromHeaders ∧
    LastDecides s!!"content-type" ContentType.fromHeaders ∧
    LastDecides s!!"content-location" (ContentLocation.fromHeaders L base) ∧
    LastDecides s!!"referer" (RefHeader.referer.fromHeaders L base) ∧
    LastDecides s!!"sourcemap" (RefHeader.sourceMap.fromHeaders L base) ∧
    LastDecides s!!"expect" Expect.fromHeaders ∧
    LastDecides s!!"age" Age.fromHeaders ∧
    LastDecides s!!"retry-after" RetryAfter.fromHeaders ∧
    LastDecides s!!"date" DateHeader.date.fromHeaders ∧
    LastDecides s!!"expires" DateHeader.expires.fromHeaders ∧
    LastDecides s!!"last-modified" DateHeader.lastModified.fromHeaders ∧
    LastDecides s!!"if-modified-since" DateHeader.ifModifiedSince.fromHeaders ∧
    LastDecides s!!"if-unmodified-since" DateHeader.ifUnmodifiedSince.fromHeaders ∧
    LastDecides s!!"etag" ETag.fromHeaders ∧
    LastDecides s!!"strict-transport-security" Hsts.fromHeaders ∧
    LastDecides s!!"authorization" Authorization.fromHeaders ∧
    LastDecides s!!"authorization" BasicAuth.fromHeaders ∧
    LastDecides s!!"www-authenticate" WwwAuthenticate.fromHeaders :=
  ⟨lastDecides_readLast _ _, lastDecides_readLast _ _, lastDecides_readLast _ _, lastDecides_readLast _ _,
    lastDecides_readLast _ _, lastDecides_readLast _ _, lastDecides_readLast _ _, lastDecides_readLast _ _,
    lastDecides_readLast _ _, lastDecides_readLast _ _, lastDecides_readLast _ _, lastDecides_readLast _ _,
    lastDecides_readLast _ _, lastDecides_readLast _ _, lastDecides_readLast _ _, lastDecides_readLast _ _,
    lastDecides_basic, lastDecides_readLast _ _⟩

example : Headers.get [(s!!"age", [s!!"7", s!!"x", s!!"9"]), (s!!"a", [])] s!!"age" = some ([s!!"7", s!!"x"] ++ [s!!"9"]) :=
  rfl

theorem codingLoop_last {α : Type} (coding : Str → Option α) (vs : List Str) (o : Option α) :
    codingLoop coding vs o = ((vs.filterMap coding).getLast?).or o := by
  induction vs generalizing o with
  | nil => rfl
  | cons v vs ih =>
    unfold codingLoop
    cases hc : coding v with
    | none => simp only; rw [ih, List.filterMap_cons_none hc]
    | some e =>
      simp only
      rw [ih, List.filterMap_cons_some hc]
      cases h : vs.filterMap coding with
      | nil => rfl
      | cons a as => rw [List.getLast?_cons_cons, List.getLast?_eq_some_getLast (by simp)]; rfl

/-- Of the codings the last known one counts; a value that names no known coding is passed over. -/
theorem C95_codings {α : Type} (name : HeaderName) (coding : Str → Option α) (h : Headers) (vs : List HeaderValue)
    (hg : h.get name = some vs) (e : α) :
    readCoding name coding h = .ok (some e) ↔ ∃ a v b, vs = a ++ v :: b ∧ coding v = some e ∧ ∀ w ∈ b, coding w = none := by
  unfold readCoding
  rw [hg]
  simp only [iter_eq, codingLoop_last, Option.or_none]
  have key : (vs.filterMap coding).getLast? = some e ↔
      ∃ a v b, vs = a ++ v :: b ∧ coding v = some e ∧ ∀ w ∈ b, coding w = none := by
    constructor
    · intro hl
      obtain ⟨ys, hy⟩ := List.getLast?_eq_some_iff.mp hl
      obtain ⟨a, c, rfl, -, h2⟩ := List.filterMap_eq_append_iff.mp hy
      obtain ⟨b1, v, b2, rfl, h3, h4, h5⟩ := List.filterMap_eq_cons_iff.mp h2
      exact ⟨a ++ b1, v, b2, by simp, h4, List.filterMap_eq_nil_iff.mp h5⟩
    · rintro ⟨a, v, b, rfl, h1, h2⟩
      rw [List.filterMap_append, List.filterMap_cons_some h1, List.filterMap_eq_nil_iff.mpr h2]
      simp
  cases hl : (vs.filterMap coding).getLast? with
  | none => rw [hl] at key; simpa [Res.unwrap, Res.map] using key
  | some x => rw [hl] at key; simpa [Res.unwrap, Res.map] using key

example : readCoding ContentEncoding.name Encoding.fromStr [(ContentEncoding.name, [s!!"gzip", s!!"br", s!!"x"])] = .ok (some .brotli) := by
  decide +kernel

/-- A value sent again any number of times is read as if sent once: for all single-valued headers. -/
theorem C95_repeated {Url : Type} (L : UrlLib Url) (base : Option Url) (randId : Nat) :
    RepeatsAlike s!!"content-length" ContentLength.fromHeaders ∧
    RepeatsAlike s!!"content-type" ContentType.fromHeaders ∧
    RepeatsAlike s!!"content-location" (ContentLocation.fromHeaders L base) ∧
    RepeatsAlike s!!"referer" (RefHeader.referer.fromHeaders L base) ∧
    RepeatsAlike s!!"sourcemap" (RefHeader.sourceMap.fromHeaders L base) ∧
    RepeatsAlike s!!"expect" Expect.fromHeaders ∧
    RepeatsAlike s!!"age" Age.fromHeaders ∧
    RepeatsAlike s!!"retry-after" RetryAfter.fromHeaders ∧
    (∀ d : DateHeader, RepeatsAlike d.name d.fromHeaders) ∧
    RepeatsAlike s!!"etag" ETag.fromHeaders ∧
    RepeatsAlike s!!"strict-transport-security" Hsts.fromHeaders ∧
    RepeatsAlike s!!"authorization" Authorization.fromHeaders ∧
    RepeatsAlike s!!"authorization" BasicAuth.fromHeaders ∧
    RepeatsAlike s!!"www-authenticate" WwwAuthenticate.fromHeaders ∧
    RepeatsAlike s!!"content-encoding" (readCoding ContentEncoding.name Encoding.fromStr) ∧
    RepeatsAlike s!!"transfer-encoding" (readCoding TransferEncoding.name TEncoding.fromStr) ∧
    RepeatsAlike s!!"traceparent" (TraceContext.fromHeaders randId) := by
  obtain ⟨h1, h2, h3, h4, h5, h6, h7, h8, -, -, -, -, -, h14, h15, h16, h17, h18⟩ := C95_last_partial L base
  have hc : ∀ {α : Type} (name : HeaderName) (coding : Str → Option α), RepeatsAlike name (readCoding name coding) := by
    intro α name coding a b k v ha hb
    unfold readCoding
    rw [ha, hb]
    simp only [iter_eq, codingLoop_last]
    congr 2
    cases hv : coding v with
    | none =>
      rw [List.filterMap_eq_nil_iff.mpr, List.filterMap_eq_nil_iff.mpr]
      · simpa using hv
      · intro w hw; rw [List.eq_of_mem_replicate hw]; exact hv
    | some e =>
      rw [List.replicate_succ', List.filterMap_append]
      simp [hv]
  refine ⟨repeatsAlike_of h1, repeatsAlike_of h2, repeatsAlike_of h3, repeatsAlike_of h4, repeatsAlike_of h5,
    repeatsAlike_of h6, repeatsAlike_of h7, repeatsAlike_of h8, fun d => repeatsAlike_of (lastDecides_readLast _ _),
    repeatsAlike_of h14, repeatsAlike_of h15, repeatsAlike_of h16, repeatsAlike_of h17, repeatsAlike_of h18,
    hc _ _, hc _ _, ?_⟩
  intro a b k v ha hb
  unfold TraceContext.fromHeaders
  rw [show a.get TraceContext.NAME = _ from ha, show b.get TraceContext.NAME = _ from hb]
  rfl

example : Age.fromHeaders [(s!!"age", [s!!"7", s!!"7"])] = Age.fromHeaders [(s!!"age", [s!!"7"])] := by decide +kernel

/-- Violated for the codings: an unknown coding added later does not make the header unreadable, nor does it count; the
earlier one is reported as if it were the only one. -/
theorem C95_violated_codings (vs : List Str) (v : Str) (hv : TEncoding.fromStr v = none) (h h' : Headers) (e : TEncoding)
    (hg : h.get TransferEncoding.name = some vs) (hg' : h'.get TransferEncoding.name = some (vs ++ [v]))
    (hr : readCoding TransferEncoding.name TEncoding.fromStr h = .ok (some e)) :
    readCoding TransferEncoding.name TEncoding.fromStr h' = .ok (some e) := by
  rw [C95_codings _ _ _ _ hg] at hr
  rw [C95_codings _ _ _ _ hg']
  obtain ⟨a, w, b, rfl, h1, h2⟩ := hr
  refine ⟨a, w, b ++ [v], by simp, h1, ?_⟩
  intro x hx
  rcases List.mem_append.mp hx with hx | hx
  · exact h2 x hx
  · rw [List.mem_singleton.mp hx]; exact hv

example : readCoding TransferEncoding.name TEncoding.fromStr
    [(TransferEncoding.name, [s!!"gzip", s!!"xchunked"])] = .ok (some .gzip) := by decide +kernel

/-- Violated: two contradictory lengths must be refused; they are not, the last is taken. -/
theorem C95_violated_content_length (m n : Nat) (hn : n < 2 ^ 64) (h : Headers)
    (hg : h.get s!!"content-length" = some [dec m, dec n]) : ContentLength.fromHeaders h = .ok (some n) := by
  have e : ContentLength.fromHeaders h = _ := readLast_snoc (n := ContentLength.name) (vs := [dec m]) hg
  rw [e, trim_of_trimmed (trimmed_dec n), parseUInt_dec (show n < u64Max1 from hn)]
  rfl

example : ContentLength.fromHeaders [(s!!"content-length", [s!!"5", s!!"7"])] = .ok (some 7) := by decide +kernel

/-- Violated: of several policies a browser must take the first (RFC 6797, 8.1); here the last one counts, even over a
first that is fine. -/
theorem C95_violated_hsts : ∃ h : Headers,
    h.get s!!"strict-transport-security" = some [s!!"max-age=31536000", s!!"max-age=0"] ∧
      Hsts.fromHeaders h = .ok (some ⟨⟨0, 0⟩, false, false⟩) :=
  ⟨[(s!!"strict-transport-security", [s!!"max-age=31536000", s!!"max-age=0"])], rfl, by decide +kernel⟩

/-- Violated for the trace context: the first value decides, alone, whatever follows, though the recommendation has a
request with several be treated as if it had none. -/
theorem C95_violated_trace (randId : Nat) (h h' : Headers) (v : HeaderValue) (vs vs' : List HeaderValue)
    (hg : h.get s!!"traceparent" = some (v :: vs)) (hg' : h'.get s!!"traceparent" = some (v :: vs')) :
    TraceContext.fromHeaders randId h = TraceContext.fromHeaders randId h' := by
  unfold TraceContext.fromHeaders
  rw [show h.get TraceContext.NAME = _ from hg, show h'.get TraceContext.NAME = _ from hg']
  rfl

example : TraceContext.fromHeaders 9 [(s!!"traceparent", [s!!"00-01-02-01", s!!"00-03-04-01"])] =
    .ok (some ⟨9, 0, 1, some 2, 1⟩) := by decide +kernel

end HT
