import Verif.Lemmas.Typed
import Verif.Lemmas.Round
import Verif.Props.Date

/-! C29, C30, C42, C58, C59: headers holding one number, date or fixed word. -/

namespace HT
open Spec HttpDate

/-- A collection with one `name: value` line, used in examples. -/
def oneHeader (n v : Str) : Headers := [(n, [v])]

/-! ### C42: Content-Length -/

/-- Writing then reading gives the same 64-bit number, whatever was there before. -/
theorem C42_roundtrip (n : Nat) (h : n < 2 ^ 64) :
    RoundTrips s!!"content-length" (ContentLength.value n) ContentLength.fromHeaders n := by
  refine roundTrips_readLast (dec n) rfl (isAscii_dec n) ?_
  rw [trim_of_trimmed (trimmed_dec n), parseUInt_dec (show n < u64Max1 from h)]
  rfl

example : (18446744073709551615 : Nat) < 2 ^ 64 := by decide
example : ContentLength.value 18446744073709551615 = .ok s!!"18446744073709551615" := by decide +kernel

/-- Reading uses the last value, and accepts exactly a decimal numeral (with optional `+`) below
2^64 between whitespace; anything else is status 400. -/
theorem C42_reads (h : Headers) :
    (h.get s!!"content-length" = none → ContentLength.fromHeaders h = .ok none) ∧
    ∀ vs v, h.get s!!"content-length" = some (vs ++ [v]) →
      (∀ n, ContentLength.fromHeaders h = .ok (some n) ↔
        n < 2 ^ 64 ∧ ∃ w t w', v = w ++ t ++ w' ∧ (∀ c ∈ w, isWs c = true) ∧ (∀ c ∈ w', isWs c = true) ∧ Numeral t n) ∧
      ((∃ n, ContentLength.fromHeaders h = .ok (some n)) ∨ ContentLength.fromHeaders h = .err 400) := by
  refine ⟨readLast_none, ?_⟩
  intro vs v hv
  have hr : ContentLength.fromHeaders h = _ := readLast_snoc hv
  rw [hr]
  constructor
  · intro n
    constructor
    · intro hn
      have h1 : parseUInt u64Max1 (trim v) = some n := by
        cases hp : parseUInt u64Max1 (trim v) with
        | none => rw [hp] at hn; cases hn
        | some m => rw [hp] at hn; cases hn; rfl
      obtain ⟨h2, h3⟩ := parseUInt_iff.mp h1
      obtain ⟨w, w', e, hw, hw'⟩ := trim_spec v
      exact ⟨h3, w, trim v, w', e, hw, hw', h2⟩
    · rintro ⟨hlt, w, t, w', rfl, hw, hw', hn⟩
      have ht : Trimmed t := by
        obtain ⟨ds, hne, hs, hd, -⟩ := hn
        apply trimmed_of_forall
        intro c hc
        rcases hs with rfl | rfl
        · exact isWs_of_isDigit (isDigit_iff_le.mpr (hd c hc))
        · rcases List.mem_cons.mp hc with rfl | hc
          · decide
          · exact isWs_of_isDigit (isDigit_iff_le.mpr (hd c hc))
      rw [trim_surround hw hw' ht, parseUInt_iff.mpr ⟨hn, show n < u64Max1 from hlt⟩]
      rfl
  · cases parseUInt u64Max1 (trim v) with
    | none => exact .inr rfl
    | some n => exact .inl ⟨n, rfl⟩

example : ContentLength.fromHeaders (oneHeader s!!"content-length" s!!" +42\t") = .ok (some 42) := by decide +kernel
example : ContentLength.fromHeaders (oneHeader s!!"content-length" s!!"18446744073709551616") = .err 400 := by
  decide +kernel
example : ContentLength.fromHeaders [(s!!"content-length", [s!!"1", s!!"2"])] = .ok (some 2) := by decide +kernel

/-! ### C59: Expect -/

/-- Reading succeeds exactly when the last value is `100-continue`, otherwise status 400. -/
theorem C59_reads (h : Headers) :
    (h.get s!!"expect" = none → Expect.fromHeaders h = .ok none) ∧
    ∀ vs v, h.get s!!"expect" = some (vs ++ [v]) →
      Expect.fromHeaders h = if v = s!!"100-continue" then .ok (some ()) else .err 400 := by
  refine ⟨readLast_none, ?_⟩
  intro vs v hv
  have hr : Expect.fromHeaders h = _ := readLast_snoc hv
  rw [hr]
  by_cases e : v = s!!"100-continue"
  · rw [if_pos e, if_pos e]; rfl
  · rw [if_neg e, if_neg e]; rfl

example : Expect.fromHeaders [(s!!"expect", [s!!"x", s!!"100-continue"])] = .ok (some ()) ∧
    Expect.fromHeaders [(s!!"expect", [s!!"100-Continue"])] = .err 400 := by decide +kernel

theorem C59_roundtrip : RoundTrips s!!"expect" Expect.value Expect.fromHeaders () :=
  roundTrips_readLast s!!"100-continue" rfl (by decide) (by decide)

example : Expect.fromHeaders [(s!!"expect", [s!!"x", s!!"100-continue"])] = .ok (some ()) := by decide +kernel
example : Expect.fromHeaders (oneHeader s!!"expect" s!!"100-Continue") = .err 400 := by decide +kernel

/-! ### C58: Retry-After in seconds -/

/-- Writing a delay and reading it back keeps the whole seconds. -/
theorem C58_roundtrip (d : Duration) (h : d.secs < 2 ^ 64) :
    RoundTrips s!!"retry-after" (RetryAfter.value (.dur d)) RetryAfter.fromHeaders (.dur ⟨d.secs, 0⟩) := by
  refine roundTrips_readLast (dec d.secs) rfl (isAscii_dec _) ?_
  rw [parseUInt_dec (show d.secs < u64Max1 from h)]

example : RoundTrips s!!"retry-after" (RetryAfter.value (.dur ⟨67, 3⟩)) RetryAfter.fromHeaders (.dur ⟨67, 0⟩) :=
  C58_roundtrip ⟨67, 3⟩ (by decide)

/-- The last value decides: a numeral below 2^64 is a delay, otherwise the text is read as a date and
rejected with status 400 if it is none. -/
theorem C58_reads (h : Headers) :
    (h.get s!!"retry-after" = none → RetryAfter.fromHeaders h = .ok none) ∧
    ∀ vs v, h.get s!!"retry-after" = some (vs ++ [v]) →
      (∀ n, RetryAfter.fromHeaders h = .ok (some (.dur n)) ↔ n.nanos = 0 ∧ n.secs < 2 ^ 64 ∧ Numeral v n.secs) ∧
      (∀ t, RetryAfter.fromHeaders h = .ok (some (.at t)) ↔ parseHttpDate v = .ok t ∧ ¬ ∃ n, n < 2 ^ 64 ∧ Numeral v n) ∧
      ((∃ r, RetryAfter.fromHeaders h = .ok (some r)) ∨ RetryAfter.fromHeaders h = .err 400) := by
  refine ⟨readLast_none, ?_⟩
  intro vs v hv
  have hr : RetryAfter.fromHeaders h = _ := readLast_snoc hv
  rw [hr]
  cases hp : parseUInt u64Max1 v with
  | some m =>
    obtain ⟨h1, h2⟩ := parseUInt_iff.mp hp
    refine ⟨?_, ?_, .inl ⟨_, rfl⟩⟩
    · intro n
      constructor
      · intro e; cases e; exact ⟨rfl, h2, h1⟩
      · rintro ⟨e1, e2, e3⟩
        obtain ⟨s, ns⟩ := n
        simp only at e1 e3
        rw [e1, numeral_unique e3 h1]; rfl
    · intro t
      constructor
      · intro e; cases e
      · rintro ⟨-, hne⟩; exact absurd ⟨m, h2, h1⟩ hne
  | none =>
    have hno : ¬ ∃ n, n < 2 ^ 64 ∧ Numeral v n := by
      rintro ⟨n, h2, h1⟩
      rw [parseUInt_iff.mpr ⟨h1, show n < u64Max1 from h2⟩] at hp
      cases hp
    refine ⟨?_, ?_, ?_⟩
    · intro n
      constructor
      · intro e
        cases hd : parseHttpDate v <;> rw [hd] at e <;> cases e
      · rintro ⟨-, e2, e3⟩; exact absurd ⟨_, e2, e3⟩ hno
    · intro t
      cases hd : parseHttpDate v with
      | ok t' =>
        simp only [Res.map_ok, Res.ok.injEq, Option.some.injEq, RetryAfter.at.injEq, hno, not_false_eq_true, and_true]
      | err e => simp [Res.map]
      | panic => simp [Res.map]
    · rcases parseHttpDate_clean v with ⟨t, ht⟩ | ht
      · rw [ht]; exact .inl ⟨.at t, rfl⟩
      · rw [ht]; exact .inr rfl

example : RetryAfter.fromHeaders (oneHeader s!!"retry-after" s!!"120") = .ok (some (.dur ⟨120, 0⟩)) := by decide +kernel
example : RetryAfter.fromHeaders (oneHeader s!!"retry-after" s!!"Sun, 06 Nov 1994 08:49:37 GMT")
    = .ok (some (.at ⟨784111777, 0⟩)) := by decide +kernel
example : RetryAfter.fromHeaders (oneHeader s!!"retry-after" s!!"soon") = .err 400 := by decide +kernel

/-! ### C29: date headers -/

theorem ofTime_display (t : SysTime) : (ofTime t).bind display = fmtHttpDate t := rfl

theorem isAscii_trim {v : Str} (h : isAscii v = true) : isAscii (trim v) = true := by
  rw [isAscii_iff] at *
  exact fun c hc => h c (mem_of_mem_trim hc)

/-- `Date` reads like the others, after trimming. -/
theorem dateHeader_read (d : DateHeader) (v : Str) : d.read v = parseHttpDate v ∨ d.read v = parseHttpDate (trim v) := by
  cases d
  case date =>
    right
    unfold DateHeader.read parseHttpDate
    simp only
    cases h : fromStr (trim v) with
    | err e => rfl
    | panic => rfl
    | ok x =>
      simp only [Res.status_ok, Res.bind_ok]
      cases ht : toTime x with
      | ok t => rfl
      | panic => rfl
      | err e =>
        exfalso
        unfold toTime at ht
        rw [Res.bind_eq_err_iff] at ht
        rcases ht with ht | ⟨a, -, ht⟩
        · unfold ydaysOf at ht; split at ht <;> cases ht
        · cases ht
  all_goals left; rfl

/-- Writing a time between 1970 and 9999 and reading it back gives the same whole second, for every one
of the five date headers. -/
theorem C29_roundtrip (d : DateHeader) (t : SysTime) (h0 : 0 ≤ t.secs)
    (h1 : t.secs ≤ (⟨9999, 12, 31, 23, 59, 59⟩ : Fields).instant) :
    RoundTrips d.name (d.value t) d.fromHeaders ⟨t.secs, 0⟩ := by
  have hb : ¬ (t.secs < 0 ∨ ((⟨9999, 12, 31, 23, 59, 59⟩ : Fields).instant : Int) < t.secs) := by omega
  rw [← C26_range] at hb
  have h2 : t.secs < 253402300800 := by
    rcases Int.lt_or_le t.secs 253402300800 with h | h
    · exact h
    · exact absurd (fmtHttpDate_out (.inr h)) hb
  obtain ⟨f, hf, -, -, hw, hp⟩ := C26_format_parse t h0 h2
  obtain ⟨ha, htr⟩ := imf_plain hf
  have hv : d.value t = .ok f.imf := by cases d <;> exact hw
  refine roundTrips_readLast f.imf hv ha ?_
  rcases dateHeader_read d f.imf with e | e
  · rw [e, hp]
  · rw [e, trim_of_trimmed htr, hp]

example : RoundTrips DateHeader.expires.name (DateHeader.expires.value ⟨784111777, 3⟩) DateHeader.expires.fromHeaders ⟨784111777, 0⟩ :=
  C29_roundtrip _ _ (by decide) (by decide +kernel)

/-- The date form of Retry-After round-trips in the same way. -/
theorem C29_retry_after (t : SysTime) (h0 : 0 ≤ t.secs)
    (h1 : t.secs ≤ (⟨9999, 12, 31, 23, 59, 59⟩ : Fields).instant) :
    RoundTrips s!!"retry-after" (RetryAfter.value (.at t)) RetryAfter.fromHeaders (.at ⟨t.secs, 0⟩) := by
  have hb : ¬ (t.secs < 0 ∨ ((⟨9999, 12, 31, 23, 59, 59⟩ : Fields).instant : Int) < t.secs) := by omega
  rw [← C26_range] at hb
  have h2 : t.secs < 253402300800 := by
    rcases Int.lt_or_le t.secs 253402300800 with h | h
    · exact h
    · exact absurd (fmtHttpDate_out (.inr h)) hb
  obtain ⟨f, hf, -, -, hw, hp⟩ := C26_format_parse t h0 h2
  refine roundTrips_readLast f.imf hw (imf_plain hf).1 ?_
  have hno : parseUInt u64Max1 f.imf = none := by
    cases hc : parseUInt u64Max1 f.imf with
    | none => rfl
    | some n =>
      exfalso
      obtain ⟨⟨ds, -, hs, hd, -⟩, -⟩ := parseUInt_iff.mp hc
      have hm : ',' ∈ f.imf := by unfold Fields.imf; simp
      rcases hs with e | e
      · rw [e] at hm; exact absurd (hd _ hm) (by decide)
      · rw [e] at hm
        rcases List.mem_cons.mp hm with hm | hm
        · exact absurd hm (by decide)
        · exact absurd (hd _ hm) (by decide)
  rw [hno]
  dsimp only
  rw [hp]; rfl

example : RoundTrips s!!"retry-after" (RetryAfter.value (.at ⟨784111777, 3⟩)) RetryAfter.fromHeaders (.at ⟨784111777, 0⟩) :=
  C29_retry_after _ (by decide) (by decide +kernel)

/-- When the header appears several times the last value is used; an ASCII value is accepted exactly when
it is a date text, and anything else is status 400, never a panic. -/
theorem C29_reads (d : DateHeader) (h : Headers) :
    (h.get d.name = none → d.fromHeaders h = .ok none) ∧
    ∀ vs v, h.get d.name = some (vs ++ [v]) →
      (Ascii v → ∀ t, d.fromHeaders h = .ok (some t) ↔ ∃ f : Fields, DateText (trim v) f ∧ f.Loose ∧ t = ⟨f.instant, 0⟩) ∧
      ((∃ t, d.fromHeaders h = .ok (some t)) ∨ d.fromHeaders h = .err 400) := by
  refine ⟨readLast_none, ?_⟩
  intro vs v hv
  have hr : d.fromHeaders h = (d.read v).map some := readLast_snoc hv
  rw [hr]
  have hm : ∀ (r : Res SysTime) t, r.map some = .ok (some t) ↔ r = .ok t := by
    intro r t; cases r <;> simp [Res.map]
  constructor
  · intro ha t
    have ha' := isAscii_iff.mpr ha
    rw [hm]
    rcases dateHeader_read d v with e | e <;> rw [e, parseHttpDate_iff]
    · simp [ha']
    · simp [isAscii_trim ha']
  · have hc : (d.read v).Clean 400 := by
      rcases dateHeader_read d v with e | e <;> rw [e] <;> exact parseHttpDate_clean _
    rcases hc with ⟨t, ht⟩ | ht
    · exact .inl ⟨t, by rw [ht]; rfl⟩
    · exact .inr (by rw [ht]; rfl)

example : DateHeader.date.fromHeaders (oneHeader s!!"date" s!!" Sun, 06 Nov 1994 08:49:37 GMT") = .ok (some ⟨784111777, 0⟩) := by
  decide +kernel
example : DateHeader.expires.fromHeaders (oneHeader s!!"expires" s!!"0") = .err 400 := by decide +kernel

/-! ### C30: Age -/

/-- Reading back a written Age gives the double nearest to the number of seconds, and panics when that
double is 2^64. -/
theorem C30_reads_rounded (d : Duration) (h : d.secs < 2 ^ 64) (m : Headers) :
    ∃ m', applyHeader m s!!"age" (Age.value d) = .ok m' ∧
      ((d.secs < 2 ^ 64 - 2 ^ 10 ∧ ∃ r, Age.fromHeaders m' = .ok (some ⟨r, 0⟩) ∧ Representable 53 r ∧
          ∀ x, Representable 53 x → gap d.secs r ≤ gap d.secs x) ∨
       (2 ^ 64 - 2 ^ 10 ≤ d.secs ∧ Age.fromHeaders m' = .panic)) := by
  refine ⟨FMap.set m s!!"age" [dec d.secs], rfl, ?_⟩
  have hr : Age.fromHeaders (FMap.set m s!!"age" [dec d.secs]) = _ := readLast_set m s!!"age" _ (dec d.secs)
  rw [hr, parseUInt_dec (show d.secs < u64Max1 from h)]
  simp only [Res.ofOption_some, Res.status_ok, Res.bind_ok]
  unfold Age.secsF64
  have hge := natToF64_ge_iff h
  rcases Nat.lt_or_ge d.secs (2 ^ 64 - 2 ^ 10) with hlt | hlt
  · left
    refine ⟨hlt, natToF64 d.secs, ?_, roundTo_representable (by omega), ?_⟩
    · rw [if_pos (by omega)]; rfl
    · intro x hx
      have := roundTo_nearest (a := d.secs) (b := 1) (p := 53) (by omega) (by omega) hx
      rwa [Nat.one_mul, Nat.one_mul] at this
  · right
    refine ⟨hlt, ?_⟩
    rw [if_neg (by omega)]; rfl

example : Age.fromHeaders [(s!!"age", [s!!"9007199254740993"])] = .ok (some ⟨9007199254740992, 0⟩) := by decide +kernel

/-- Exactly the seconds with at most 53 significant bits survive; in particular all up to 2^53. -/
theorem C30_survive_iff_partial (d : Duration) (h : d.secs < 2 ^ 64) :
    RoundTrips s!!"age" (Age.value d) Age.fromHeaders ⟨d.secs, 0⟩ ↔ Representable 53 d.secs := by
  constructor
  · intro hrt
    obtain ⟨h', v, h1, -, -, h4⟩ := hrt []
    obtain ⟨m', e1, e2⟩ := C30_reads_rounded d h []
    rw [h1] at e1
    cases e1
    rcases e2 with ⟨-, r, hr, hrep, -⟩ | ⟨-, hp⟩
    · rw [h4] at hr
      cases hr
      exact hrep
    · rw [h4] at hp; cases hp
  · intro hrep
    refine roundTrips_readLast (dec d.secs) rfl (isAscii_dec _) ?_
    rw [parseUInt_dec (show d.secs < u64Max1 from h)]
    simp only [Res.ofOption_some, Res.status_ok, Res.bind_ok]
    unfold Age.secsF64
    rw [show natToF64 d.secs = d.secs from (roundTo_eq_self_iff (by omega)).mpr hrep, if_pos h]

example : Age.fromHeaders [(s!!"age", [s!!"9007199254740994"])] = .ok (some ⟨9007199254740994, 0⟩) := by decide +kernel

theorem C30_small_partial (d : Duration) (h : d.secs ≤ 2 ^ 53) :
    RoundTrips s!!"age" (Age.value d) Age.fromHeaders ⟨d.secs, 0⟩ :=
  (C30_survive_iff_partial d (by omega)).mpr (representable_of_lt h (by omega))

example : RoundTrips s!!"age" (Age.value ⟨31, 7⟩) Age.fromHeaders ⟨31, 0⟩ := C30_small_partial ⟨31, 7⟩ (by decide)

/-- Seconds above 2^53 may come back changed, and seconds near 2^64 make reading panic. -/
theorem C30_violated_large :
    Age.fromHeaders (oneHeader s!!"age" s!!"9007199254740993") = .ok (some ⟨9007199254740992, 0⟩) ∧
    Age.value ⟨9007199254740993, 0⟩ = .ok s!!"9007199254740993" ∧
    Age.fromHeaders (oneHeader s!!"age" s!!"18446744073709551615") = .panic ∧
    Age.value ⟨18446744073709551615, 0⟩ = .ok s!!"18446744073709551615" := by
  decide +kernel

/-- Malformed ages are status 400. -/
theorem C30_malformed (h : Headers) (vs : List Str) (v : Str) (hv : h.get s!!"age" = some (vs ++ [v])) :
    Age.fromHeaders h = .err 400 ↔ ¬ ∃ n, n < 2 ^ 64 ∧ Numeral v n := by
  have hr : Age.fromHeaders h = _ := readLast_snoc hv
  rw [hr]
  cases hp : parseUInt u64Max1 v with
  | none =>
    refine ⟨fun _ => ?_, fun _ => rfl⟩
    rintro ⟨n, h2, h1⟩
    rw [parseUInt_iff.mpr ⟨h1, show n < u64Max1 from h2⟩] at hp
    cases hp
  | some n =>
    obtain ⟨h1, h2⟩ := parseUInt_iff.mp hp
    refine ⟨fun e => ?_, fun e => absurd ⟨n, h2, h1⟩ e⟩
    simp only [Res.ofOption_some, Res.status_ok, Res.bind_ok] at e
    unfold Age.secsF64 at e
    split at e <;> cases e

example : Age.fromHeaders (oneHeader s!!"age" s!!"30") = .ok (some ⟨30, 0⟩) := by decide +kernel
example : Age.fromHeaders (oneHeader s!!"age" s!!" 30") = .err 400 := by decide +kernel

end HT
