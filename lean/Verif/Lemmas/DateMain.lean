import Verif.Lemmas.DateParse

/-! Reading and writing HTTP dates: full characterisations. -/

namespace HT
open Spec HttpDate

theorem parseU8_ne_panic (s : Str) : parseU8 s ≠ .panic := by
  unfold parseU8; cases parseUInt u8Max1 s <;> simp
theorem parseU16_ne_panic (s : Str) : parseU16 s ≠ .panic := by
  unfold parseU16; cases parseUInt u16Max1 s <;> simp

theorem ite_ne_panic {α : Type} {c : Prop} [Decidable c] {a b : Res α} (ha : a ≠ .panic) (hb : b ≠ .panic) :
    (if c then a else b) ≠ .panic := by
  by_cases h : c
  · rw [if_pos h]; exact ha
  · rw [if_neg h]; exact hb

theorem imfMonth_ne_panic (s : Str) : imfMonth s ≠ .panic := by
  unfold imfMonth
  repeat (refine ite_ne_panic (by simp) ?_)
  simp
theorem rfcMonth_ne_panic (s : Str) : rfcMonth s ≠ .panic := by
  unfold rfcMonth
  repeat (refine ite_ne_panic (by simp) ?_)
  simp
theorem ascMonth_ne_panic (s : Str) : ascMonth s ≠ .panic := by
  unfold ascMonth
  repeat (refine ite_ne_panic (by simp) ?_)
  simp
theorem imfDay_ne_panic (s : Str) : imfDay s ≠ .panic := by
  unfold imfDay
  repeat (refine ite_ne_panic (by simp) ?_)
  simp
theorem ascDay_ne_panic (s : Str) : ascDay s ≠ .panic := by
  unfold ascDay
  repeat (refine ite_ne_panic (by simp) ?_)
  simp

theorem parseImf_ne_panic (s : Str) : parseImf s ≠ .panic := by
  unfold parseImf
  split
  · simp
  · simp [Res.bind_eq_panic_iff, parseU8_ne_panic, parseU16_ne_panic, imfMonth_ne_panic, imfDay_ne_panic]

theorem parseAsctime_ne_panic (s : Str) : parseAsctime s ≠ .panic := by
  unfold parseAsctime
  split
  · simp
  · simp [Res.bind_eq_panic_iff, parseU8_ne_panic, parseU16_ne_panic, ascMonth_ne_panic, ascDay_ne_panic]

theorem parseRfc850_ne_panic (s : Str) : parseRfc850 s ≠ .panic := by
  rw [parseRfc850_eq]
  split
  · simp
  · rw [ne_eq, Res.bind_eq_panic_iff]
    rintro (h | ⟨p, -, h⟩)
    · unfold rfcDay Res.ofOption at h
      split at h <;> cases h
    · unfold rfcRest at h
      split at h
      · cases h
      · simp [Res.bind_eq_panic_iff, parseU8_ne_panic, parseU16_ne_panic, rfcMonth_ne_panic] at h

theorem numText_length {k n : Nat} {s : Str} (h : NumText k s n) : s.length = k := h.1

theorem clockText_length {s : Str} {f : Fields} (h : ClockText s f) : s.length = 8 := by
  obtain ⟨a, b, c, rfl, h1, h2, h3⟩ := h
  simp [h1.1, h2.1, h3.1]

theorem imfText_length {s : Str} {f : Fields} (h : ImfText s f) : s.length = 29 := by
  obtain ⟨w, d, y, t, hw, h1, h2, h3, h4, h5, rfl⟩ := h
  obtain ⟨_, _, _, hw⟩ := mem_shortDays hw
  simp [h1.1, h2.1, clockText_length h3, hw, monthStr_length h4 h5]

theorem asctimeText_length {s : Str} {f : Fields} (h : AsctimeText s f) : s.length = 24 := by
  obtain ⟨w, d, y, t, hw, h1, h2, h3, h4, h5, rfl⟩ := h
  obtain ⟨_, _, _, hw⟩ := mem_shortDays hw
  have hd : d.length = 2 := by
    rcases h1 with h | ⟨d', rfl, h, -⟩
    · exact h.1
    · simp [h]
  simp [hd, h2.1, clockText_length h3, hw, monthStr_length h4 h5]

theorem rfc850Text_length {s : Str} {f : Fields} (h : Rfc850Text s f) : 30 ≤ s.length := by
  obtain ⟨w, d, y, t, yy, sep, hw, h1, h2, h3, h4, h5, h6, rfl⟩ := h
  obtain ⟨_, _, _, hw⟩ := mem_longDays hw
  simp [h1.1, h2.1, clockText_length h3, monthStr_length h4 h5]
  omega

/-- The three alternatives in order. -/
def parseAny (x : Str) : Res HttpDate :=
  orElse (orElse (parseImf x) fun _ => parseRfc850 x) fun _ => parseAsctime x

theorem orElse_eq_ok {a : Res HttpDate} {b : Unit → Res HttpDate} {d : HttpDate} :
    orElse a b = .ok d ↔ a = .ok d ∨ (∃ s, a = .err s) ∧ b () = .ok d := by
  cases a <;> simp [orElse]

theorem orElse_ne_panic {a : Res HttpDate} {b : Unit → Res HttpDate} (ha : a ≠ .panic) (hb : b () ≠ .panic) :
    orElse a b ≠ .panic := by
  cases a <;> simp_all [orElse]

theorem parseAny_ne_panic (x : Str) : parseAny x ≠ .panic :=
  orElse_ne_panic (orElse_ne_panic (parseImf_ne_panic x) (parseRfc850_ne_panic x)) (parseAsctime_ne_panic x)

theorem parseAny_sound {x : Str} {d : HttpDate} (h : parseAny x = .ok d) :
    DateText x d.fields ∧ 1 ≤ d.weekDay ∧ d.weekDay ≤ 7 := by
  unfold parseAny at h
  rw [orElse_eq_ok, orElse_eq_ok] at h
  rcases h with (h | ⟨-, h⟩) | ⟨-, h⟩
  · exact ⟨.inl (parseImf_sound h).1, (parseImf_sound h).2⟩
  · exact ⟨.inr (.inl (parseRfc850_sound h).1), (parseRfc850_sound h).2⟩
  · exact ⟨.inr (.inr (parseAsctime_sound h).1), (parseAsctime_sound h).2⟩

theorem ne_ok_panic {α : Type} {r : Res α} (h1 : ∀ a, r ≠ .ok a) (h2 : r ≠ .panic) : ∃ s, r = .err s := by
  cases r with
  | ok a => exact absurd rfl (h1 a)
  | err s => exact ⟨s, rfl⟩
  | panic => exact absurd rfl h2

theorem parseAny_complete {x : Str} {f : Fields} (h : DateText x f) :
    ∃ w, 1 ≤ w ∧ w ≤ 7 ∧ parseAny x = .ok ⟨f.second, f.minute, f.hour, f.day, f.month, f.year, w⟩ := by
  unfold parseAny
  rcases h with h | h | h
  · obtain ⟨w, h1, h2, h3⟩ := parseImf_complete h
    refine ⟨w, h1, h2, ?_⟩
    rw [h3]; rfl
  · obtain ⟨w, h1, h2, h3⟩ := parseRfc850_complete h
    refine ⟨w, h1, h2, ?_⟩
    have hl := rfc850Text_length h
    have : ∃ s, parseImf x = .err s := by
      apply ne_ok_panic _ (parseImf_ne_panic x)
      intro d hd
      have := imfText_length (parseImf_sound hd).1
      omega
    rw [orElse_eq_ok, orElse_eq_ok]
    exact .inl (.inr ⟨this, h3⟩)
  · obtain ⟨w, h1, h2, h3⟩ := parseAsctime_complete h
    refine ⟨w, h1, h2, ?_⟩
    have hl := asctimeText_length h
    have : ∃ s, orElse (parseImf x) (fun _ => parseRfc850 x) = .err s := by
      apply ne_ok_panic _ (orElse_ne_panic (parseImf_ne_panic x) (parseRfc850_ne_panic x))
      intro d hd
      rw [orElse_eq_ok] at hd
      rcases hd with hd | ⟨-, hd⟩
      · have := imfText_length (parseImf_sound hd).1
        omega
      · have := rfc850Text_length (parseRfc850_sound hd).1
        omega
    rw [orElse_eq_ok]
    exact .inr ⟨this, h3⟩

theorem isValid_iff {d : HttpDate} :
    d.isValid = true ↔ d.fields.Loose ∧ 1 ≤ d.weekDay ∧ d.weekDay ≤ 7 := by
  unfold isValid Fields.Loose HttpDate.fields
  simp only [Bool.and_eq_true, decide_eq_true_eq]
  omega

theorem toTime_valid {d : HttpDate} (h : d.fields.Loose) : toTime d = .ok ⟨d.fields.instant, 0⟩ := by
  obtain ⟨h1, h2, h3, h4, h5, h6, -⟩ := h
  simp only [HttpDate.fields] at h1 h2 h3 h4 h5 h6
  unfold toTime Fields.instant Fields.dayNumber HttpDate.fields
  have hy : ydaysOf d.month = .ok ([0, 31, 59, 90, 120, 151, 181, 212, 243, 273, 304, 334].getD (d.month - 1) 0) := by
    obtain h | h | h | h | h | h | h | h | h | h | h | h :
      d.month = 1 ∨ d.month = 2 ∨ d.month = 3 ∨ d.month = 4 ∨ d.month = 5 ∨ d.month = 6 ∨ d.month = 7 ∨
      d.month = 8 ∨ d.month = 9 ∨ d.month = 10 ∨ d.month = 11 ∨ d.month = 12 := by omega
    all_goals rw [h]; rfl
  rw [hy]
  simp only [Res.bind_ok]
  rw [daysToMonth_lt (by omega)]
  generalize [0, 31, 59, 90, 120, 151, 181, 212, 243, 273, 304, 334].getD (d.month - 1) 0 = T
  have hc := daysToYear_closed (d.year - 1970)
  rw [show 1969 + (d.year - 1970) = d.year - 1 by omega] at hc
  have hleap : isLeapYear d.year = true ↔ Leap d.year := by
    unfold isLeapYear Leap
    simp only [Bool.and_eq_true, beq_iff_eq, Bool.or_eq_true, bne_iff_ne]
    omega
  have hdays : (d.year - 1970) * 365 + ((d.year - 1 - 1968) / 4 - (d.year - 1 - 1900) / 100 + (d.year - 1 - 1600) / 400)
      = daysToYear (d.year - 1970) := by
    have e4 : (d.year - 1 - 1968) / 4 = (d.year - 1) / 4 - 492 := by omega
    have e100 : (d.year - 1 - 1900) / 100 = (d.year - 1) / 100 - 19 := Nat.sub_mul_div (d.year - 1) 100 19
    have e400 : (d.year - 1 - 1600) / 400 = (d.year - 1) / 400 - 4 := Nat.sub_mul_div (d.year - 1) 400 4
    rw [e4, e100, e400]
    omega
  rw [hdays]
  congr 2
  simp only [hleap]
  by_cases hl : Leap d.year <;> by_cases hm : d.month > 2
  · rw [if_pos ⟨hl, hm⟩, if_pos ⟨by omega, hl⟩]; omega
  · rw [if_neg (by tauto), if_neg (by omega)]; omega
  · rw [if_neg (by tauto), if_neg (by tauto)]; omega
  · rw [if_neg (by tauto), if_neg (by tauto)]; omega

/-- Reading succeeds exactly on ASCII texts which, trimmed, are in one of the layouts with fields
in range, and gives the instant of those fields. -/
theorem parseHttpDate_iff {s : Str} {t : SysTime} :
    parseHttpDate s = .ok t ↔ isAscii s = true ∧ ∃ f : Fields, DateText (trim s) f ∧ f.Loose ∧ t = ⟨f.instant, 0⟩ := by
  unfold parseHttpDate
  rw [Res.status_eq_ok_iff, Res.bind_eq_ok_iff]
  constructor
  · rintro ⟨d, h1, h2⟩
    unfold fromStr at h1
    split at h1
    · rename_i ha
      refine ⟨ha, ?_⟩
      rw [Res.bind_eq_ok_iff] at h1
      obtain ⟨d', h3, h4⟩ := h1
      split at h4
      · rename_i hv
        cases h4
        have h5 := parseAny_sound h3
        have h6 := isValid_iff.mp hv
        rw [toTime_valid h6.1] at h2
        cases h2
        exact ⟨_, h5.1, h6.1, rfl⟩
      · cases h4
    · cases h1
  · rintro ⟨ha, f, h1, h2, rfl⟩
    obtain ⟨w, hw1, hw2, h3⟩ := parseAny_complete h1
    refine ⟨_, ?_, toTime_valid (d := ⟨f.second, f.minute, f.hour, f.day, f.month, f.year, w⟩) h2⟩
    unfold fromStr
    rw [if_pos ha]
    unfold parseAny at h3
    simp only [h3, Res.bind_ok]
    rw [if_pos]
    exact isValid_iff.mpr ⟨h2, hw1, hw2⟩

theorem fromStr_ne_panic (s : Str) : fromStr s ≠ .panic := by
  unfold fromStr
  split
  · rw [ne_eq, Res.bind_eq_panic_iff]
    rintro (h | ⟨d, -, h⟩)
    · exact parseAny_ne_panic _ h
    · split at h <;> cases h
  · simp

theorem parseHttpDate_clean (s : Str) : (parseHttpDate s).Clean 400 := by
  unfold parseHttpDate
  cases h : fromStr s with
  | err e => exact .inr rfl
  | panic => exact absurd h (fromStr_ne_panic s)
  | ok d =>
    have : d.fields.Loose := by
      unfold fromStr at h
      split at h
      · rw [Res.bind_eq_ok_iff] at h
        obtain ⟨d', -, h4⟩ := h
        split at h4
        · rename_i hv
          cases h4
          exact (isValid_iff.mp hv).1
        · cases h4
      · cases h
    rw [Res.bind_ok, toTime_valid this]
    exact .inl ⟨_, rfl⟩

/-! ### Writing -/

theorem display_eq {f : Fields} (h : f.Real) :
    display ⟨f.second, f.minute, f.hour, f.day, f.month, f.year, weekday f.dayNumber + 1⟩ = .ok f.imf := by
  obtain ⟨h1, h2, h3, h4, h5, h6, h7, h8, h9⟩ := h
  unfold display
  have hd : dayName (weekday f.dayNumber + 1) = .ok (shortDay (weekday f.dayNumber)) := by
    have : weekday f.dayNumber < 7 := Nat.mod_lt _ (by omega)
    generalize weekday f.dayNumber = w at this
    obtain rfl | rfl | rfl | rfl | rfl | rfl | rfl :
      w = 0 ∨ w = 1 ∨ w = 2 ∨ w = 3 ∨ w = 4 ∨ w = 5 ∨ w = 6 := by omega
    all_goals rfl
  have hm : monthName f.month = .ok (monthStr f.month) := by
    obtain h | h | h | h | h | h | h | h | h | h | h | h :
      f.month = 1 ∨ f.month = 2 ∨ f.month = 3 ∨ f.month = 4 ∨ f.month = 5 ∨ f.month = 6 ∨ f.month = 7 ∨
      f.month = 8 ∨ f.month = 9 ∨ f.month = 10 ∨ f.month = 11 ∨ f.month = 12 := by omega
    all_goals rw [h]; rfl
  simp only [hd, hm, Res.bind_ok]
  unfold Fields.imf d4 d2 Fields.clock d2 dig
  have e1 : f.year / 100 / 10 = f.year / 1000 := by omega
  have e2 : f.year % 100 / 10 = f.year / 10 % 10 := by omega
  have e3 : f.year % 100 % 10 = f.year % 10 := by omega
  rw [e1, e2, e3]
  simp

/-- Writing a time in range spells the real calendar date of that second. -/
theorem fmtHttpDate_in {t : SysTime} (h0 : 0 ≤ t.secs) (h1 : t.secs < 253402300800) :
    ∃ f : Fields, f.Real ∧ (f.instant : Int) = t.secs ∧ fmtHttpDate t = .ok f.imf := by
  obtain ⟨n, hn⟩ : ∃ n : Nat, t.secs = n := ⟨t.secs.toNat, by omega⟩
  unfold fmtHttpDate ofTime
  rw [if_neg (by omega), if_neg (by omega)]
  simp only [hn, Int.toNat_natCast]
  obtain ⟨y, m, d, w, hc, hy1, hy2, hm1, hm2, hd1, hd2, hday, hw⟩ := civil_spec (n / 86400) (by omega)
  simp only [hc, Int.toNat_natCast, Res.bind_ok]
  refine ⟨⟨y, m, d, n % 86400 / 3600, n % 86400 % 3600 / 60, n % 86400 % 60⟩,
    ⟨hy1, hy2, hm1, hm2, hd1, hd2, by simp only; omega, by simp only; omega, by simp only; omega⟩, ?_, ?_⟩
  · unfold Fields.instant Fields.dayNumber
    simp only [hday]
    omega
  · rw [← display_eq]
    · congr 2
      unfold Fields.dayNumber
      simp only [hday, hw]
    · exact ⟨hy1, hy2, hm1, hm2, hd1, hd2, by simp only; omega, by simp only; omega, by simp only; omega⟩

theorem fmtHttpDate_out {t : SysTime} (h : t.secs < 0 ∨ 253402300800 ≤ t.secs) : fmtHttpDate t = .panic := by
  unfold fmtHttpDate ofTime
  rcases h with h | h
  · rw [if_pos h]; rfl
  · rw [if_neg (by omega), if_pos h]; rfl

/-! ### Written texts are in the layouts -/

theorem numText_d2 {n : Nat} (h : n < 100) : NumText 2 (d2 n) n := by
  refine ⟨rfl, d2 n, by simp [d2], .inl rfl, ?_, ?_⟩
  · intro c hc
    rw [← isDigit_iff_le]
    simp only [d2, List.mem_cons, List.not_mem_nil, or_false] at hc
    unfold isDigit
    rcases hc with rfl | rfl <;> rw [toNat_ofNat (by omega)] <;> simp <;> omega
  · unfold d2 decValue
    simp only [List.foldl_cons, List.foldl_nil]
    rw [toNat_ofNat (by omega), toNat_ofNat (by omega)]
    omega

theorem numText_d4 {n : Nat} (h : n < 10000) : NumText 4 (d4 n) n := by
  refine ⟨rfl, d4 n, by simp [d4, d2], .inl rfl, ?_, ?_⟩
  · intro c hc
    rw [← isDigit_iff_le]
    simp only [d4, d2, List.mem_append, List.mem_cons, List.not_mem_nil, or_false] at hc
    unfold isDigit
    rcases hc with (rfl | rfl) | (rfl | rfl) <;> rw [toNat_ofNat (by omega)] <;> simp <;> omega
  · unfold d4 d2 decValue
    simp only [List.cons_append, List.nil_append, List.foldl_cons, List.foldl_nil]
    rw [toNat_ofNat (by omega), toNat_ofNat (by omega), toNat_ofNat (by omega), toNat_ofNat (by omega)]
    omega

theorem numText_d1 {n : Nat} (h : n < 10) : NumText 1 [Char.ofNat (48 + n)] n := by
  refine ⟨rfl, _, by simp, .inl rfl, ?_, ?_⟩
  · intro c hc
    rw [← isDigit_iff_le]
    simp only [List.mem_cons, List.not_mem_nil, or_false] at hc
    unfold isDigit
    rw [hc, toNat_ofNat (by omega)]; simp; omega
  · unfold decValue
    simp only [List.foldl_cons, List.foldl_nil]
    rw [toNat_ofNat (by omega)]
    omega

theorem clockText_clock {f : Fields} (h : f.Real) : ClockText f.clock f := by
  obtain ⟨-, -, -, -, -, -, h7, h8, h9⟩ := h
  exact ⟨d2 f.hour, d2 f.minute, d2 f.second, rfl, numText_d2 (by omega), numText_d2 (by omega), numText_d2 (by omega)⟩

theorem monthLen_le {y m : Nat} : monthLen y m ≤ 31 := by
  unfold monthLen
  split <;> first | omega | (split <;> omega)

theorem real_loose {f : Fields} (h : f.Real) : f.Loose := by
  obtain ⟨h1, h2, h3, h4, h5, h6, h7, h8, h9⟩ := h
  exact ⟨h1, h2, h3, h4, h5, Nat.le_trans h6 monthLen_le, h7, h8, h9⟩

theorem weekday_lt (n : Nat) : weekday n < 7 := Nat.mod_lt _ (by omega)

theorem imfText_imf {f : Fields} (h : f.Real) : ImfText f.imf f := by
  have hl := real_loose h
  obtain ⟨h1, h2, h3, h4, h5, h6, -⟩ := hl
  exact ⟨_, d2 f.day, d4 f.year, f.clock, shortDay_mem (weekday_lt _), numText_d2 (by omega), numText_d4 (by omega),
    clockText_clock h, h3, h4, rfl⟩

theorem rfc850Text_rfc850 {f : Fields} (h : f.Real) (hy : f.year < 2070) : Rfc850Text f.rfc850 f := by
  have hl := real_loose h
  obtain ⟨h1, h2, h3, h4, h5, h6, -⟩ := hl
  refine ⟨_, d2 f.day, d2 (f.year % 100), f.clock, f.year % 100, ' ', longDay_mem (weekday_lt _), numText_d2 (by omega),
    numText_d2 (by omega), clockText_clock h, h3, h4, ?_, rfl⟩
  split <;> omega

theorem asctimeText_asctime {f : Fields} (h : f.Real) : AsctimeText f.asctime f := by
  have hl := real_loose h
  obtain ⟨h1, h2, h3, h4, h5, h6, -⟩ := hl
  refine ⟨_, _, d4 f.year, f.clock, shortDay_mem (weekday_lt _), ?_, numText_d4 (by omega),
    clockText_clock h, h3, h4, rfl⟩
  split
  · exact .inr ⟨_, rfl, numText_d1 (by omega)⟩
  · exact .inl (numText_d2 (by omega))

end HT
