import Verif.Props.Auth
import Verif.Props.Security
import Verif.Props.AcceptTrip

/-! C29, C41, C45, C46, C47, C51, C58: exactly which values come back from the header they are written to. -/

namespace HT
open Spec HttpDate

/-- A written value is read back as one thing only. -/
theorem roundTrips_unique {α : Type} {name : HeaderName} {value : Res HeaderValue}
    {read : Headers → Res (Option α)} {x y : α} (hx : RoundTrips name value read x)
    (hy : RoundTrips name value read y) : x = y := by
  obtain ⟨h1, v1, a1, -, -, d1⟩ := hx []
  obtain ⟨h2, v2, a2, -, -, d2⟩ := hy []
  rw [a1] at a2
  cases a2
  rw [d1] at d2
  exact Option.some.inj (Res.ok.inj d2)

/-- What a round trip of a value that is there says about it. -/
theorem roundTrips_stored {α : Type} {name : HeaderName} {v : HeaderValue}
    {read : Headers → Res (Option α)} {x : α} (hx : RoundTrips name (.ok v) read x) :
    Ascii v ∧ ∃ h' : Headers, h'.get name = some [v] ∧ read h' = .ok (some x) := by
  obtain ⟨h1, v1, a1, b1, c1, d1⟩ := hx []
  have hg : h1.get name = some [v] := by
    have : applyHeader [] name (.ok v) = .ok (FMap.set [] name [v]) := rfl
    rw [this] at a1
    cases a1
    exact get_set_self _ _ _
  have := c1 name
  rw [if_pos rfl, hg] at this
  cases this
  exact ⟨b1, h1, hg, d1⟩

/-! ### Dates -/

/-- Writing a time and reading it back works exactly from 1970 to 9999, and gives the time without its fraction of a
second and nothing else. -/
theorem C29_round_trip_iff (d : DateHeader) (t x : SysTime) :
    RoundTrips d.name (d.value t) d.fromHeaders x ↔
      0 ≤ t.secs ∧ t.secs ≤ (⟨9999, 12, 31, 23, 59, 59⟩ : Fields).instant ∧ x = ⟨t.secs, 0⟩ := by
  constructor
  · intro h
    have hb : ¬ (t.secs < 0 ∨ ((⟨9999, 12, 31, 23, 59, 59⟩ : Fields).instant : Int) < t.secs) := by
      rw [← C26_range]
      intro hp
      have hv : d.value t = .panic := by
        cases d <;> exact hp
      obtain ⟨h1, v1, a1, -⟩ := h []
      rw [hv] at a1
      cases a1
    have h0 : 0 ≤ t.secs := by omega
    have h1 : t.secs ≤ (⟨9999, 12, 31, 23, 59, 59⟩ : Fields).instant := by omega
    exact ⟨h0, h1, roundTrips_unique h (C29_roundtrip d t h0 h1)⟩
  · rintro ⟨h0, h1, rfl⟩
    exact C29_roundtrip d t h0 h1

example : ¬ RoundTrips DateHeader.expires.name (DateHeader.value .expires ⟨-1, 0⟩) (DateHeader.fromHeaders .expires)
    ⟨-1, 0⟩ := by
  rw [C29_round_trip_iff]; simp
example : ¬ RoundTrips DateHeader.date.name (DateHeader.value .date ⟨784111777, 1⟩) (DateHeader.fromHeaders .date)
    ⟨784111777, 1⟩ := by
  rw [C29_round_trip_iff]; simp

/-- A delay comes back exactly without its fraction of a second. -/
theorem C58_round_trip_iff (d : Duration) (hd : d.secs < 2 ^ 64) (r : RetryAfter) :
    RoundTrips s!!"retry-after" (RetryAfter.value (.dur d)) RetryAfter.fromHeaders r ↔ r = .dur ⟨d.secs, 0⟩ :=
  ⟨fun h => roundTrips_unique h (C58_roundtrip d hd), fun h => h ▸ C58_roundtrip d hd⟩

example : ¬ RoundTrips s!!"retry-after" (RetryAfter.value (.dur ⟨5, 1⟩)) RetryAfter.fromHeaders (.dur ⟨5, 1⟩) := by
  rw [C58_round_trip_iff _ (by decide)]; simp

/-! ### Credentials -/

/-- Exactly ASCII credentials survive as ASCII values. -/
theorem C45_round_trip_iff (a : Authorization) :
    RoundTrips Authorization.NAME (.ok a.headerValue) Authorization.fromHeaders a ↔ Ascii a.credentials := by
  refine ⟨fun h => ?_, C45_round_trip a⟩
  obtain ⟨ha, h', hg, -⟩ := roundTrips_stored h
  exact (C45_any_credentials a h' hg).2.mp ha

example : ¬ RoundTrips Authorization.NAME (.ok (Authorization.headerValue ⟨.bearer, s!!"é"⟩)) Authorization.fromHeaders
    ⟨.bearer, s!!"é"⟩ := by
  rw [C45_round_trip_iff, spec_ascii_iff]; decide

/-- Exactly the user names without a colon survive, whatever the password. -/
theorem C46_round_trip_iff_partial (b : BasicAuth) :
    RoundTrips Authorization.NAME (.ok b.headerValue) BasicAuth.fromHeaders b ↔ ':' ∉ b.username := by
  refine ⟨fun h => ?_, C46_round_trip_partial b⟩
  obtain ⟨-, h', hg, hr⟩ := roundTrips_stored h
  obtain ⟨-, -, hn, -⟩ := (((C46_reads h').2 [] _ hg).1 b).mp hr
  exact hn

example : ¬ RoundTrips Authorization.NAME (.ok (BasicAuth.headerValue ⟨s!!"a:b", s!!"c"⟩)) BasicAuth.fromHeaders
    ⟨s!!"a:b", s!!"c"⟩ := by
  rw [C46_round_trip_iff_partial]; decide

/-- Exactly the ASCII realms without a double quote survive. -/
theorem C47_round_trip_iff_partial (a : WwwAuthenticate) :
    RoundTrips WwwAuthenticate.NAME (.ok a.headerValue) WwwAuthenticate.fromHeaders a ↔
      Ascii a.realm ∧ '"' ∉ a.realm := by
  refine ⟨fun h => ?_, fun ⟨h1, h2⟩ => C47_round_trip_partial a h1 h2⟩
  obtain ⟨ha, h', hg, hr⟩ := roundTrips_stored h
  refine ⟨fun c hc => ha c (by simp [WwwAuthenticate.headerValue, hc]), fun hq => ?_⟩
  obtain ⟨s, realm⟩ := a
  obtain ⟨r, rest, he, hn⟩ := List.eq_append_cons_of_mem hq
  simp only at he
  subst he
  have := C47_violated_quote s r rest hn h' hg
  rw [hr] at this
  simp at this

example : ¬ RoundTrips WwwAuthenticate.NAME (.ok (WwwAuthenticate.headerValue ⟨.basic, s!!"a\"b"⟩))
    WwwAuthenticate.fromHeaders ⟨.basic, s!!"a\"b"⟩ := by
  rw [C47_round_trip_iff_partial]; decide

/-! ### Strict-Transport-Security -/

/-- Exactly the policies of whole seconds without subdomains survive. -/
theorem C51_round_trip_iff_partial (p : Hsts) (hs : p.maxAge.secs < 2 ^ 64) :
    RoundTrips Hsts.NAME (.ok p.headerValue) Hsts.fromHeaders p ↔
      p.maxAge.nanos = 0 ∧ p.includeSubdomains = false := by
  refine ⟨fun h => ?_, fun ⟨h1, h2⟩ => C51_round_trip_partial p hs h1 h2⟩
  have := roundTrips_unique h (C51_reads_back p hs)
  rw [this]
  exact ⟨rfl, rfl⟩

example : ¬ RoundTrips Hsts.NAME (.ok (Hsts.headerValue ⟨⟨60, 5⟩, false, true⟩)) Hsts.fromHeaders
    ⟨⟨60, 5⟩, false, true⟩ := by
  rw [C51_round_trip_iff_partial _ (by decide)]; simp

/-! ### Weighted lists -/

/-- Lists of codings come back unchanged exactly if every weight has at most three decimals. -/
theorem C41_round_trip_iff :
    (∀ a : AcceptList Encoding, (∀ p ∈ a.entries, WeightOk p) →
      (RoundTrips AcceptEncoding.name (AcceptEncoding.value a) AcceptEncoding.fromHeaders a ↔
        ∀ p ∈ a.entries, ThreeDecimals p.weight)) ∧
    (∀ a : AcceptList TEncoding, (∀ p ∈ a.entries, WeightOk p) →
      (RoundTrips TE.name (TE.value a) TE.fromHeaders a ↔ ∀ p ∈ a.entries, ThreeDecimals p.weight)) := by
  constructor
  · intro a hw
    obtain ⟨ps, h1, -, h3, h4⟩ := C41_round_trip.1 a hw
    refine ⟨fun h => ?_, fun h => ?_⟩
    · rw [roundTrips_unique h h1]; exact h3
    · rw [h4 h] at h1; exact h1
  · intro a hw
    obtain ⟨ps, h1, -, h3, h4⟩ := C41_round_trip.2 a hw
    refine ⟨fun h => ?_, fun h => ?_⟩
    · rw [roundTrips_unique h h1]; exact h3
    · rw [h4 h] at h1; exact h1

example : TE.value ⟨false, [⟨.gzip, some (thousandths 125)⟩]⟩ = .ok s!!"gzip;q=0.125" ∧
    TE.fromHeaders [(TE.name, [s!!"gzip;q=0.125"])] = .ok (some ⟨false, [⟨.gzip, some (thousandths 125)⟩]⟩) := by decide +kernel

/-- Lists of media types come back unchanged exactly if every entry has a weight, of at most three decimals. -/
theorem C41_media_iff_partial (a : AcceptList Mime) (hw : ∀ p ∈ a.entries, WeightOk p)
    (ht : ∀ p ∈ a.entries, AcceptType p.item) :
    RoundTrips s!!"accept" (Accept.value a) Accept.fromHeaders a ↔
      ∀ p ∈ a.entries, ThreeDecimals p.weight ∧ p.weight ≠ none := by
  obtain ⟨ps, h1, -, h3, h4⟩ := C41_media_partial a hw ht
  refine ⟨fun h => ?_, fun h => ?_⟩
  · rw [roundTrips_unique h h1]; exact h3
  · rw [h4 h] at h1; exact h1

example (m : Mime) (hm : AcceptType m) :
    ¬ RoundTrips s!!"accept" (Accept.value ⟨false, [⟨m, none⟩]⟩) Accept.fromHeaders ⟨false, [⟨m, none⟩]⟩ := by
  rw [C41_media_iff_partial _ (by simp [WeightOk]) (by simpa using hm)]
  simp

end HT
