import Verif.Spec.Location
import Verif.Spec.Names
import Verif.Props.Names
import Verif.Props.Clean
import Verif.Props.Message

/-! Headers with one URL and the content type: C74, C75. -/

namespace HT
open Spec
variable {Url : Type}

theorem around_iff {v t : Str} : Around v t ↔ t = trim v := by
  constructor
  · rintro ⟨w, w', rfl, hw, hw', h1, h2⟩
    rw [List.append_assoc, trim_ws_append hw, trim_append_ws' hw', trim_of_trimmed ⟨h1, h2⟩]
  · rintro rfl
    obtain ⟨w, w', e, hw, hw'⟩ := trim_spec v
    exact ⟨w, w', e, hw, hw', (trimmed_trim v).1, (trimmed_trim v).2⟩

/-! A small library to try the statements on: a URL is a text after `x:`; references are appended to the base. -/
def toyLib : UrlLib Str where
  parse s := stripPrefix s!!"x:" s
  join b s := match stripPrefix s!!"x:" s with
    | some u => some u
    | none => if s = s!!"<" then none else some (b ++ s)
  display u := s!!"x:" ++ u

/-- C74: Content-Location is the last value, resolved against the base; without a base or when that fails it is an
error of the client. It never panics. -/
theorem C74_content_location (L : UrlLib Url) (base : Option Url) (h : Headers) :
    (h.get s!!"content-location" = none → ContentLocation.fromHeaders L base h = .ok none) ∧
    ∀ vs v, h.get s!!"content-location" = some (vs ++ [v]) →
      (∀ x, ContentLocation.fromHeaders L base h = .ok x ↔ ∃ u, x = some u ∧ RefersTo L base v u) ∧
      ((∀ u, ¬ RefersTo L base v u) → ContentLocation.fromHeaders L base h = .err 400) := by
  refine ⟨fun hn => readLast_none hn, fun vs v hv => ?_⟩
  have hr : ContentLocation.fromHeaders L base h = _ := readLast_snoc hv
  rw [hr]
  have key : ∀ u, RefersTo L base v u ↔ ∃ b, base = some b ∧ L.join b (trim v) = some u := by
    intro u
    constructor
    · rintro ⟨b, t, hb, ht, hj⟩
      rw [around_iff.mp ht] at hj
      exact ⟨b, hb, hj⟩
    · rintro ⟨b, hb, hj⟩
      exact ⟨b, _, hb, around_iff.mpr rfl, hj⟩
  simp only [key]
  cases base with
  | none => simp
  | some b =>
    cases hj : L.join b (trim v) with
    | none =>
      refine ⟨fun x => ⟨fun e => ?_, ?_⟩, fun _ => ?_⟩
      · simp [hj] at e
      · rintro ⟨u, -, b', e, h'⟩
        cases e
        rw [hj] at h'
        cases h'
      · simp [hj]
    | some u =>
      refine ⟨fun x => ⟨fun e => ?_, ?_⟩, fun h' => absurd ⟨b, rfl, hj⟩ (h' u)⟩
      · simp [hj] at e
        exact ⟨u, e.symm, b, rfl, hj⟩
      · rintro ⟨u', rfl, b', e, h'⟩
        cases e
        rw [hj] at h'
        cases h'
        simp [hj]

example : ContentLocation.fromHeaders toyLib (some s!!"a/") [(s!!"content-location", [s!!"x:q", s!!" b "])] =
    .ok (some s!!"a/b") := by decide +kernel
example : ContentLocation.fromHeaders toyLib (some s!!"a/") [(s!!"content-location", [s!!"<"])] = .err 400 := by
  decide +kernel

/-- C74: Referer and SourceMap are the last value as a URL of its own, and only if it is none, resolved against the
base. Otherwise it is an error, but with status 500. They never panic. (Missing: status 400.) -/
theorem C74_referer_partial (k : RefHeader) (L : UrlLib Url) (base : Option Url) (h : Headers) :
    (h.get k.name = none → k.fromHeaders L base h = .ok none) ∧
    ∀ vs v, h.get k.name = some (vs ++ [v]) →
      (∀ x, k.fromHeaders L base h = .ok x ↔
        ∃ u, x = some u ∧ (L.parse v = some u ∨ L.parse v = none ∧ RefersTo L base v u)) ∧
      ((L.parse v = none ∧ ∀ u, ¬ RefersTo L base v u) → k.fromHeaders L base h = .err 500) := by
  refine ⟨fun hn => readLast_none hn, fun vs v hv => ?_⟩
  have hr : k.fromHeaders L base h = _ := readLast_snoc hv
  rw [hr]
  have key : ∀ u, RefersTo L base v u ↔ ∃ b, base = some b ∧ L.join b (trim v) = some u := by
    intro u
    constructor
    · rintro ⟨b, t, hb, ht, hj⟩
      rw [around_iff.mp ht] at hj
      exact ⟨b, hb, hj⟩
    · rintro ⟨b, hb, hj⟩
      exact ⟨b, _, hb, around_iff.mpr rfl, hj⟩
  simp only [key]
  cases hp : L.parse v with
  | some u => simp [eq_comm]
  | none =>
    cases base with
    | none => simp
    | some b =>
      cases hj : L.join b (trim v) with
      | none => simp [hj]
      | some u => simp [hj, eq_comm]

example : RefHeader.referer.fromHeaders toyLib none [(s!!"referer", [s!!"x:q"])] = .ok (some s!!"q") := by decide +kernel
example : RefHeader.sourceMap.fromHeaders toyLib (some s!!"a/") [(s!!"sourcemap", [s!!" b "])] = .ok (some s!!"a/b") := by
  decide +kernel

/-- C74 is violated in the status: a reference that does not resolve is reported as an error of the server. -/
theorem C74_violated_status (k : RefHeader) (L : UrlLib Url) (base : Option Url) (h : Headers) (vs : List Str) (v : Str)
    (hv : h.get k.name = some (vs ++ [v])) (h1 : L.parse v = none) (h2 : ∀ u, ¬ RefersTo L base v u) :
    k.fromHeaders L base h = .err 500 :=
  (((C74_referer_partial k L base h).2 vs v hv).2) ⟨h1, h2⟩

example : RefHeader.referer.fromHeaders toyLib (some s!!"a/") [(s!!"referer", [s!!"<"])] = .err 500 := by decide +kernel

/-- C74: a URL that is written reads back, whatever the base. Content-Location needs a base though it does not
matter which. -/
theorem C74_round_trip (L : UrlLib Url) (u : Url) (hu : Printable L u) :
    (∀ b, RoundTrips s!!"content-location" (ContentLocation.value L u) (ContentLocation.fromHeaders L (some b)) u) ∧
    ∀ (k : RefHeader) base, RoundTrips k.name (RefHeader.value L u) (k.fromHeaders L base) u := by
  constructor
  · intro b
    refine roundTrips_readLast _ rfl (isAscii_iff.mpr hu.ascii) ?_
    rw [← around_iff.mp hu.trimmed]
    simp only [hu.join b]
    rfl
  · intro k base
    refine roundTrips_readLast _ rfl (isAscii_iff.mpr hu.ascii) ?_
    rw [hu.parse]

theorem toy_printable {u : Str} (ha : ∀ c ∈ u, c.toNat < 128) (ht : trim (s!!"x:" ++ u) = s!!"x:" ++ u) :
    Printable toyLib u where
  ascii := by
    intro c hc
    rcases List.mem_append.mp hc with h | h
    · exact (show ∀ c ∈ s!!"x:", c.toNat < 128 by decide) c h
    · exact ha c h
  trimmed := around_iff.mpr ht.symm
  parse := rfl
  join _ := rfl

example : Printable toyLib s!!"a/b" := toy_printable (by decide) (by decide)

/-- C74: an absolute URL does not read without a base from Content-Location, but does from the other two. -/
theorem C74_no_base (L : UrlLib Url) (u : Url) (hu : Printable L u) (h : Headers) (vs : List Str) :
    (h.get s!!"content-location" = some (vs ++ [L.display u]) → ContentLocation.fromHeaders L none h = .err 400) ∧
    ∀ k : RefHeader, h.get k.name = some (vs ++ [L.display u]) → k.fromHeaders L none h = .ok (some u) := by
  refine ⟨fun hv => ((C74_content_location L none h).2 _ _ hv).2 ?_, fun k hv => ?_⟩
  · rintro u ⟨b, t, e, -⟩
    cases e
  · exact (((C74_referer_partial k L none h).2 _ _ hv).1 _).mpr ⟨u, rfl, .inl hu.parse⟩

example : ContentLocation.fromHeaders toyLib none [(s!!"content-location", [s!!"x:q"])] = .err 400 ∧
    RefHeader.sourceMap.fromHeaders toyLib none [(s!!"sourcemap", [s!!"x:q"])] = .ok (some s!!"q") := by decide +kernel

/-- C74: setting the location replaces it by the converted value. A value that does not convert leaves Referer and
SourceMap as they were, and panics for Content-Location. -/
theorem C74_set (u : Url) :
    (∀ l, ContentLocation.setLocation u (some l) = .ok l) ∧ ContentLocation.setLocation u none = .panic ∧
    (∀ l, RefHeader.setLocation u (some l) = (l, true)) ∧ RefHeader.setLocation u none = (u, false) :=
  ⟨fun _ => rfl, rfl, fun _ => rfl, rfl⟩

example : ContentLocation.setLocation s!!"a" (some s!!"b") = .ok s!!"b" ∧ RefHeader.setLocation s!!"a" none = (s!!"a", false) :=
  ⟨rfl, rfl⟩

/-- C69: which field each of them is about. -/
theorem C69_fields_urls (L : UrlLib Url) (base : Option Url) :
    IsField s!!"Content-Location" ContentLocation.name (ContentLocation.fromHeaders L base) ∧
    IsField s!!"Referer" RefHeader.referer.name (RefHeader.referer.fromHeaders L base) ∧
    IsField s!!"SourceMap" RefHeader.sourceMap.name (RefHeader.sourceMap.fromHeaders L base) ∧
    IsField s!!"Content-Type" ContentType.name ContentType.fromHeaders :=
  ⟨isField_readLast (by decide), isField_readLast (by decide), isField_readLast (by decide),
    isField_readLast (by decide)⟩

example : RefHeader.referer.fromHeaders toyLib none (HOp.run [.insert s!!"REFERER" (.str s!!"x:q")]) = .ok (some s!!"q") := by
  decide +kernel

/-! ### C75: Content-Type -/

/-- C75: Content-Type is the last value as a media type, 400 if it is none, and never panics. -/
theorem C75_reads (h : Headers) :
    (h.get s!!"content-type" = none → ContentType.fromHeaders h = .ok none) ∧
    ∀ vs v, h.get s!!"content-type" = some (vs ++ [v]) →
      (∀ x, ContentType.fromHeaders h = .ok x ↔ ∃ m, x = some m ∧ Mime.parse v = .ok m) ∧
      ((∀ m, Mime.parse v ≠ .ok m) → ContentType.fromHeaders h = .err 400) := by
  refine ⟨fun hn => readLast_none hn, fun vs v hv => ?_⟩
  have hr : ContentType.fromHeaders h = _ := readLast_snoc hv
  rw [hr]
  rcases C23_never_panics v with ⟨m, e⟩ | e
  · simp [e, eq_comm]
  · simp [e]

example : ContentType.fromHeaders [(s!!"content-type", [s!!"a/b", s!!"Text/HTML"])] =
    .ok (some ⟨s!!"text/html", s!!"text", s!!"html", false, []⟩) := by decide +kernel
example : ContentType.fromHeaders [(s!!"content-type", [s!!"<nori>"])] = .err 400 := by decide +kernel

/-- C75: exactly the well-formed media types of ASCII text are written as a legal value and read back. -/
theorem C75_round_trip_iff (m : Mime) :
    RoundTrips s!!"content-type" (ContentType.value m) ContentType.fromHeaders m ↔
      MimeWF m ∧ ∀ c ∈ m.display, c.toNat < 128 := by
  have hread : ∀ h : Headers, h.get s!!"content-type" = some [m.display] →
      (ContentType.fromHeaders h = .ok (some m) ↔ MimeWF m) := by
    intro h hv
    rw [((C75_reads h).2 [] _ hv).1, ← C22_round_trip_iff]
    simp
  constructor
  · intro h
    obtain ⟨h', v, ha, hc, hg, hr⟩ := h []
    cases ha
    have hv := hg s!!"content-type"
    rw [if_pos rfl, get_set_self] at hv
    cases hv
    exact ⟨(hread _ (get_set_self _ _ _)).mp hr, hc⟩
  · rintro ⟨h1, h2⟩
    exact roundTrips_of _ rfl (isAscii_iff.mpr h2) fun h hv => (hread h hv).mpr h1

example : RoundTrips s!!"content-type" (ContentType.value ⟨s!!"a/b", s!!"a", s!!"b", true, [(s!!"c", s!!"d e")]⟩)
    ContentType.fromHeaders ⟨s!!"a/b", s!!"a", s!!"b", true, [(s!!"c", s!!"d e")]⟩ :=
  (C75_round_trip_iff _).mpr ⟨(C22_round_trip_iff _).mp (by decide +kernel), by decide⟩

/-- C75: the typed header and the content type of a request or response say the same; the latter hides errors. -/
theorem C75_message {β : Type} (m : Msg β) (hne : m.headers.get s!!"content-type" ≠ some []) :
    ∃ t, m.contentType = .ok t ∧
      (ContentType.fromHeaders m.headers = .ok t ∨ t = none ∧ ContentType.fromHeaders m.headers = .err 400) := by
  unfold Msg.contentType
  cases hg : m.headers.get CONTENT_TYPE with
  | none => exact ⟨none, rfl, .inl (readLast_none hg)⟩
  | some vs =>
    rcases nil_or_snoc vs with rfl | ⟨a, v, rfl⟩
    · exact absurd hg hne
    · have hl : HeaderValues.last (a ++ [v]) = .ok v := by simp [HeaderValues.last]
      have hr : ContentType.fromHeaders m.headers = _ := readLast_snoc hg
      rw [hr]
      simp only [hl, Res.bind_ok]
      rcases C23_never_panics v with ⟨t, e⟩ | e
      · rw [e]
        exact ⟨some t, rfl, .inl rfl⟩
      · rw [e]
        exact ⟨none, rfl, .inr ⟨rfl, rfl⟩⟩

example : Msg.contentType (β := Unit) ⟨[(s!!"content-type", [s!!"<nori>"])], ()⟩ = .ok none := by decide +kernel

/-- C75: making the header from a text gives the parsed media type and panics exactly when there is none. -/
theorem C75_new (s : Str) :
    (∀ m, ContentType.new s = .ok m ↔ Mime.parse s = .ok m) ∧
    (ContentType.new s = .panic ↔ ∀ m, Mime.parse s ≠ .ok m) := by
  unfold ContentType.new
  rcases C23_never_panics s with ⟨m, e⟩ | e <;> simp [e]

example : ContentType.new s!!"text" = .panic := by decide +kernel

/-- C62 for these headers: Content-Location and Content-Type fail only with 400, Referer and SourceMap only with 500;
none panics. (Missing: 400 for the last two.) -/
theorem C62_urls_partial (L : UrlLib Url) (base : Option Url) :
    ReadsCleanly 400 s!!"content-location" (ContentLocation.fromHeaders L base) ∧
    ReadsCleanly 400 s!!"content-type" ContentType.fromHeaders ∧
    ∀ k : RefHeader, ReadsCleanly 500 k.name (k.fromHeaders L base) := by
  refine ⟨readsCleanly_readLast _ _ fun v => ?_, readsCleanly_readLast _ _ fun v => ?_,
    fun k => readsCleanly_readLast _ _ fun v => ?_⟩
  · cases base with
    | none => exact .inr rfl
    | some b => exact clean_ofOption _
  · rcases C23_never_panics v with ⟨m, e⟩ | e <;> rw [e]
    · exact .inl ⟨_, rfl⟩
    · exact .inr rfl
  · cases L.parse v with
    | some u => exact .inl ⟨_, rfl⟩
    | none =>
      cases base with
      | none => exact .inr rfl
      | some b => exact clean_ofOption _

example : RefHeader.referer.fromHeaders toyLib (some s!!"a/") [(s!!"referer", [s!!"<"])] = .err 500 ∧
    ContentType.fromHeaders [(s!!"content-type", [s!!"<"])] = .err 400 := by decide +kernel

end HT
