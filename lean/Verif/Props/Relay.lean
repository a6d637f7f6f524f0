import Verif.Spec.Relay
import Verif.Lemmas.MimeChars
import Verif.Props.AcceptTrip
import Verif.Props.Injection

/-! C88: a typed header that was read can be passed on. -/

namespace HT
open Spec

theorem Received.last {h : Headers} {n : Str} (hr : Received h n) {vs : List Str} {v : Str}
    (hg : h.get n = some (vs ++ [v])) : Ascii v := (hr _ hg).2 v (by simp)

theorem get_of_read {α : Type} {n : Str} {read : Headers → Res (Option α)} {h : Headers} {x : α}
    (hnone : h.get n = none → read h = .ok none) (hx : read h = .ok (some x)) (hr : Received h n) :
    ∃ vs v, h.get n = some (vs ++ [v]) ∧ ∀ u ∈ vs ++ [v], Ascii u := by
  cases hg : h.get n with
  | none => rw [hnone hg] at hx; cases hx
  | some l =>
    obtain ⟨h1, h2⟩ := hr l hg
    rcases nil_or_snoc l with rfl | ⟨vs, v, rfl⟩
    · exact absurd rfl h1
    · exact ⟨vs, v, rfl, h2⟩

/-! ### Numbers and dates -/

theorem daysToYear_8030 : daysToYear 8030 = 2932897 := by
  have := daysToYear_closed 8030
  revert this
  generalize daysToYear 8030 = n
  intro h
  omega

theorem real_instant_lt {f : Fields} (h : f.Real) : f.instant < 253402300800 := by
  obtain ⟨h1, h2, h3, h4, h5, h6, h7, h8, h9⟩ := h
  have hm : daysToMonth f.year (f.month - 1) + monthLen f.year f.month ≤ daysToMonth f.year 12 := by
    have e : daysToMonth f.year (f.month - 1 + 1) = daysToMonth f.year (f.month - 1) + monthLen f.year (f.month - 1 + 1) := rfl
    rw [show f.month - 1 + 1 = f.month by omega] at e
    rw [← e]
    exact daysToMonth_mono h4
  have hy : daysToYear (f.year - 1970) + daysToMonth f.year 12 ≤ daysToYear 8030 := by
    have e : daysToYear (f.year - 1970 + 1) = daysToYear (f.year - 1970) + daysToMonth (1970 + (f.year - 1970)) 12 := rfl
    rw [show 1970 + (f.year - 1970) = f.year by omega] at e
    rw [← e]
    exact daysToYear_mono (by omega)
  rw [daysToYear_8030] at hy
  unfold Fields.instant Fields.dayNumber
  omega

theorem last_instant : ((⟨9999, 12, 31, 23, 59, 59⟩ : Fields).instant : Int) = 253402300799 := by
  have := daysToYear_closed 8029
  have e2 : daysToMonth 9999 11 = 334 := by decide
  unfold Fields.instant Fields.dayNumber
  simp only [Nat.reduceSub, e2]
  generalize daysToYear 8029 = n at *
  omega

theorem read_date_range {s : Str} {t : SysTime} (h : parseHttpDate s = .ok t) :
    t.nanos = 0 ∧ 0 ≤ t.secs ∧ t.secs ≤ (⟨9999, 12, 31, 23, 59, 59⟩ : Fields).instant := by
  obtain ⟨f, -, -, rfl, hf⟩ := C28_ranges_partial s t h
  have : f.instant < 253402300800 := by
    rcases hf with hf | ⟨g, hg, -, -, -, -, -, -, -, e⟩
    · exact real_instant_lt hf
    · rw [← e]; exact real_instant_lt hg
  rw [last_instant]
  refine ⟨rfl, ?_, ?_⟩ <;> simp only <;> omega

/-- C88 (numbers): Content-Length, Expect, Age and the two forms of Retry-After. -/
theorem C88_numbers :
    Relays s!!"content-length" ContentLength.value ContentLength.fromHeaders ∧
    Relays s!!"expect" (fun _ => Expect.value) Expect.fromHeaders ∧
    Relays s!!"age" Age.value Age.fromHeaders ∧
    Relays s!!"retry-after" RetryAfter.value RetryAfter.fromHeaders := by
  refine ⟨fun h n hr hx => ?_, fun h _ hr hx => ?_, fun h d hr hx => ?_, fun h r hr hx => ?_⟩
  · obtain ⟨vs, v, hg, -⟩ := get_of_read (C42_reads h).1 hx hr
    exact C42_roundtrip n ((((C42_reads h).2 vs v hg).1 n).mp hx).1
  · exact C59_roundtrip
  · obtain ⟨vs, v, hg, hv⟩ := readLast_cases hx
    have hd : ∃ n, Age.secsF64 n = .ok d := by
      rw [Res.bind_eq_ok_iff] at hv
      obtain ⟨n, -, hn⟩ := hv
      exact ⟨n, hn⟩
    obtain ⟨n, hn⟩ := hd
    unfold Age.secsF64 at hn
    by_cases hlt : natToF64 n < 2 ^ 64
    · rw [if_pos hlt] at hn
      obtain rfl := Res.ok.inj hn
      exact (C30_survive_iff_partial _ hlt).mpr (roundTo_representable (by omega))
    · rw [if_neg hlt] at hn
      cases hn
  · obtain ⟨vs, v, hg, -⟩ := get_of_read (C58_reads h).1 hx hr
    obtain ⟨h1, h2, -⟩ := (C58_reads h).2 vs v hg
    cases r with
    | dur d =>
      obtain ⟨e, hs, -⟩ := (h1 d).mp hx
      have := C58_roundtrip d hs
      rwa [← e] at this
    | «at» t =>
      obtain ⟨e, r1, r2⟩ := read_date_range ((h2 t).mp hx).1
      have := C29_retry_after t r1 r2
      rwa [← e] at this

example : RetryAfter.fromHeaders (oneHeader s!!"retry-after" s!!"007") = .ok (some (.dur ⟨7, 0⟩)) ∧
    RetryAfter.value (.dur ⟨7, 0⟩) = .ok s!!"7" := by decide +kernel

/-- C88 (dates): the five date headers. -/
theorem C88_dates (d : DateHeader) : Relays d.name d.value d.fromHeaders := by
  intro h t hr hx
  obtain ⟨vs, v, hg, ha⟩ := get_of_read (C29_reads d h).1 hx hr
  have hm : ∀ (r : Res SysTime) t, r.map some = .ok (some t) ↔ r = .ok t := by
    intro r t; cases r <;> simp [Res.map]
  have hd : d.fromHeaders h = (d.read v).map some := readLast_snoc hg
  rw [hd, hm] at hx
  have : ∃ s, parseHttpDate s = .ok t := by
    rcases dateHeader_read d v with e | e <;> rw [e] at hx
    · exact ⟨_, hx⟩
    · exact ⟨_, hx⟩
  obtain ⟨s, hs⟩ := this
  obtain ⟨e, r1, r2⟩ := read_date_range hs
  have := C29_roundtrip d t r1 r2
  rwa [← e] at this


example : Relays DateHeader.lastModified.name DateHeader.lastModified.value DateHeader.lastModified.fromHeaders :=
  C88_dates _
example : Received (oneHeader s!!"retry-after" s!!"Wed, 31 Feb 2021 00:00:00 GMT") s!!"retry-after" ∧
    RetryAfter.fromHeaders (oneHeader s!!"retry-after" s!!"Wed, 31 Feb 2021 00:00:00 GMT") =
      .ok (some (.at ⟨1614729600, 0⟩)) := by
  refine ⟨fun vs h => ?_, by decide +kernel⟩
  cases h
  refine ⟨by simp, fun v hv => ?_⟩
  rw [List.mem_singleton.mp hv]
  decide

/-! ### Entity tags and site data -/

theorem listItems_ne_nil {vs : List Str} (h : vs ≠ []) : listItems vs ≠ [] := by
  cases vs with
  | nil => exact absurd rfl h
  | cons v vs =>
    unfold listItems
    rw [List.flatMap_cons]
    intro e
    have := (List.append_eq_nil_iff.mp e).1
    rw [List.map_eq_nil_iff] at this
    exact split_ne_nil _ _ this

theorem readStarList_none {α : Type} {name : HeaderName} {star : Str} {parse : Str → Res α} {h : Headers}
    (hn : h.get name = none) : readStarList name star parse h = .ok none := by
  unfold readStarList
  rw [hn]

theorem etagBody_text {c : Char} {e : ETag} (h : c ∈ etagBody e) : c ∈ etagText e := by
  cases e <;> simp only [etagBody, etagText] at * <;> simp [h]

/-- C88 (tags): ETag, If-Match, If-None-Match and Clear-Site-Data. -/
theorem C88_tags :
    Relays s!!"etag" ETag.value ETag.fromHeaders ∧
    Relays s!!"if-match" IfMatch.value IfMatch.fromHeaders ∧
    Relays s!!"if-none-match" IfMatch.value IfMatch.noneFromHeaders ∧
    Relays s!!"clear-site-data" ClearSiteData.value ClearSiteData.fromHeaders := by
  have hstar : ∀ {items : List Str} {star : Str} {α : Type} {R : Str → α → Prop} {l : StarList α}, items ≠ [] →
      l.wildcard = decide (star ∈ items) → List.Forall₂ R (items.filter (· ≠ star)) l.entries →
      l.entries ≠ [] ∨ l.wildcard = true := by
    intro items star α R l hne hw hf
    by_cases hs : star ∈ items
    · right; rw [hw]; exact decide_eq_true hs
    · left
      intro e
      rw [e] at hf
      have hnil : items.filter (· ≠ star) = [] := by cases hf' : items.filter (· ≠ star) with
        | nil => rfl
        | cons a b => rw [hf'] at hf; cases hf
      cases items with
      | nil => exact hne rfl
      | cons a b =>
        rw [List.filter_eq_nil_iff] at hnil
        have := hnil a (by simp)
        simp only [ne_eq, decide_not, Bool.not_eq_true', decide_eq_false_iff_not, not_not] at this
        exact hs (by simp [this])
  have htag : ∀ none : Bool, Relays (if none then s!!"if-none-match" else s!!"if-match") IfMatch.value
      (if none then IfMatch.noneFromHeaders else IfMatch.fromHeaders) := by
    intro none h l hr hx
    obtain ⟨vs, v, hg, ha⟩ := get_of_read (fun hn => by cases none <;> exact readStarList_none hn) hx hr
    have h1 := ((C34_reads h _ none hg).1 l).mp (by cases none <;> exact hx)
    rw [C34_roundtrip_iff_partial]
    refine ⟨hstar (listItems_ne_nil (by simp)) h1.1 h1.2, fun e he => ?_⟩
    obtain ⟨t, ht, hte, hl⟩ := forall₂_left h1.2.flip e he
    have hm := (List.mem_filter.mp ht).1
    have hasc := listItems_ascii ha t hm
    have hcomma := (listItems_mem hm).1
    subst hte
    exact ⟨hl, fun c hc => hasc c (etagBody_text hc), fun hc => hcomma (etagBody_text hc)⟩
  refine ⟨fun h e hr hx => ?_, htag false, htag true, fun h l hr hx => ?_⟩
  · obtain ⟨vs, v, hg, hv⟩ := readLast_cases hx
    rw [C33_header_roundtrip]
    obtain ⟨e1, e2⟩ := ((C33_parse_iff v).1 e).mp hv
    refine ⟨e2, fun c hc => Received.last hr hg c ?_⟩
    rw [e1]
    exact etagBody_text hc
  · obtain ⟨vs, v, hg, ha⟩ := get_of_read (fun hn => readStarList_none hn) hx hr
    have h1 := ((C32_reads h _ hg).1 l).mp hx
    rw [C32_roundtrip_iff_partial]
    refine hstar (R := fun t d => t = d.asStr) (listItems_ne_nil (by simp)) h1.1 ?_
    rw [h1.2, List.forall₂_map_left_iff]
    exact List.forall₂_same.mpr fun _ _ => rfl

example : IfMatch.fromHeaders [(s!!"if-match", [s!!"\"a\" , W/\"b\"", s!!"*"])] =
    .ok (some ⟨[.strong s!!"a", .weak s!!"b"], true⟩) := by decide +kernel

/-! ### Credentials and codings -/

/-- C88 (credentials): Authorization, Basic credentials and WWW-Authenticate. -/
theorem C88_credentials :
    Relays Authorization.NAME (fun a => .ok a.headerValue) Authorization.fromHeaders ∧
    Relays Authorization.NAME (fun b => .ok b.headerValue) BasicAuth.fromHeaders ∧
    Relays WwwAuthenticate.NAME (fun a => .ok a.headerValue) WwwAuthenticate.fromHeaders := by
  refine ⟨fun h a hr hx => ?_, fun h b hr hx => ?_, fun h a hr hx => ?_⟩
  · obtain ⟨vs, v, hg, -⟩ := get_of_read (C45_reads h).1 hx hr
    obtain ⟨t, e, -⟩ := (((C45_reads h).2 vs v hg).1 a).mp hx
    refine C45_round_trip a fun c hc => Received.last hr hg c ?_
    rw [e]; simp [hc]
  · obtain ⟨vs, v, hg, -⟩ := get_of_read (C46_reads h).1 hx hr
    obtain ⟨cs, -, hu, -⟩ := (((C46_reads h).2 vs v hg).1 b).mp hx
    exact C46_round_trip_partial b hu
  · obtain ⟨vs, v, hg, -⟩ := get_of_read (C47_reads h).1 hx hr
    obtain ⟨t, ws, rest, e, -, -, hq⟩ := (((C47_reads h).2 vs v hg).1 a).mp hx
    refine C47_round_trip_partial a (fun c hc => Received.last hr hg c ?_) hq
    rw [e]; simp [hc]

example : WwwAuthenticate.fromHeaders (oneHeader s!!"www-authenticate" s!!"dIGEST   realm=\"a b\", x") =
    .ok (some ⟨.digest, s!!"a b"⟩) := by decide +kernel

/-- C88 (codings): Content-Encoding and Transfer-Encoding. -/
theorem C88_codings :
    Relays ContentEncoding.name (fun e => .ok e.display) (readCoding ContentEncoding.name Encoding.fromStr) ∧
    Relays TransferEncoding.name (fun e => .ok e.display) (readCoding TransferEncoding.name TEncoding.fromStr) :=
  ⟨fun _ e _ _ => C43_round_trip.1 e, fun _ e _ _ => C43_round_trip.2 e⟩

example : readCoding TransferEncoding.name TEncoding.fromStr [(TransferEncoding.name, [s!!"x", s!!" gzip "])] = .ok (some .gzip) := by
  decide +kernel

/-- C88 (media type): Content-Type, whatever its parameters. -/
theorem C88_content_type : Relays s!!"content-type" ContentType.value ContentType.fromHeaders := by
  intro h m hr hx
  obtain ⟨vs, v, hg, -⟩ := get_of_read (C75_reads h).1 hx hr
  obtain ⟨m', e, hp⟩ := (((C75_reads h).2 vs v hg).1 _).mp hx
  cases e
  have hwf := C23_wf hp
  rw [C75_round_trip_iff]
  refine ⟨hwf, Mime.display_chars hwf (Mime.parse_chars (Received.last hr hg) hp) (fun c hc => ?_) (by decide)⟩
  have := Mime.tchar_nat hc
  omega

example : ContentType.fromHeaders (oneHeader s!!"content-type" s!!"Text/HTML; Charset=utf-8;a=\"b\\\"c\"") =
    .ok (some ⟨s!!"text/html", s!!"text", s!!"html", true, [(s!!"a", s!!"b\"c")]⟩) := by decide +kernel

/-- C88 (methods): Allow, as a set, in whatever order the set is written. -/
theorem C88_allow (h : Headers) (ms order : List Method) (hr : Received h s!!"allow")
    (hx : Allow.fromHeaders h = .ok (some ms)) (hn : order.Nodup) (ho : ∀ m, m ∈ order ↔ m ∈ ms) :
    ∃ ms', (∀ m, m ∈ ms' ↔ m ∈ ms) ∧ RoundTrips s!!"allow" (Allow.value order) Allow.fromHeaders ms' := by
  obtain ⟨vs, v, hg, -⟩ := get_of_read (fun hn => by
      unfold Allow.fromHeaders
      rw [show h.get Allow.name = none from hn]) hx hr
  have hne : order ≠ [] := by
    rintro rfl
    obtain ⟨h1, h2⟩ := C44_reads h _ hg
    by_cases hall : ∀ t ∈ listItems (vs ++ [v]), ∃ m : Method, sameName t m.asStr = true
    · obtain ⟨ms', e, -, hm⟩ := h1 hall
      rw [hx] at e
      cases e
      cases hi : listItems (vs ++ [v]) with
      | nil => exact listItems_ne_nil (by simp) hi
      | cons t ts =>
        obtain ⟨m, hm'⟩ := hall t (by simp [hi])
        have := (ho m).mpr ((hm m).mpr ⟨t, by simp [hi], hm'⟩)
        cases this
    · push Not at hall
      rw [h2 (by simpa using hall)] at hx
      cases hx
  obtain ⟨ms', h1, h2⟩ := (C44_roundtrip_iff_partial order hn).mpr hne
  exact ⟨ms', fun m => (h1 m).trans (ho m), h2⟩

example : Allow.fromHeaders (oneHeader s!!"allow" s!!"get, PUT,GET") = .ok (some [.get, .put]) := by decide +kernel

end HT
