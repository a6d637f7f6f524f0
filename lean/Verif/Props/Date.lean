import Verif.Lemmas.DateMain

/-! C26–C28: HTTP dates. -/

namespace HT
open Spec HttpDate

/-! ### The calendar is unambiguous -/

theorem daysToMonth_mono {y a b : Nat} (h : a ≤ b) : daysToMonth y a ≤ daysToMonth y b := by
  induction b with
  | zero => rw [Nat.le_zero.mp h]; exact Nat.le_refl _
  | succ b ih =>
    rcases Nat.lt_or_ge a (b + 1) with h' | h'
    · exact Nat.le_trans (ih (by omega)) (by simp [daysToMonth])
    · rw [show a = b + 1 by omega]; exact Nat.le_refl _

theorem daysToYear_mono {a b : Nat} (h : a ≤ b) : daysToYear a ≤ daysToYear b := by
  induction b with
  | zero => rw [Nat.le_zero.mp h]; exact Nat.le_refl _
  | succ b ih =>
    rcases Nat.lt_or_ge a (b + 1) with h' | h'
    · exact Nat.le_trans (ih (by omega)) (by simp [daysToYear])
    · rw [show a = b + 1 by omega]; exact Nat.le_refl _

/-- Day of the year is less than the length of the year. -/
theorem dayOfYear_lt {f : Fields} (h : f.Real) :
    daysToMonth f.year (f.month - 1) + (f.day - 1) < daysToMonth f.year f.month := by
  obtain ⟨h1, h2, h3, h4, h5, h6, -⟩ := h
  obtain ⟨m, hm⟩ : ∃ m, f.month = m + 1 := ⟨f.month - 1, by omega⟩
  rw [hm] at h6 ⊢
  simp only [Nat.add_sub_cancel, daysToMonth]
  omega

theorem dayNumber_bounds {f : Fields} (h : f.Real) :
    daysToYear (f.year - 1970) ≤ f.dayNumber ∧ f.dayNumber < daysToYear (f.year - 1970 + 1) := by
  have h1 := dayOfYear_lt h
  have h2 : daysToMonth f.year f.month ≤ daysToMonth f.year 12 := daysToMonth_mono h.2.2.2.1
  have h3 : 1970 + (f.year - 1970) = f.year := by have := h.1; omega
  unfold Fields.dayNumber
  rw [daysToYear, h3]
  omega

theorem dayNumber_inj {f g : Fields} (hf : f.Real) (hg : g.Real) (h : f.dayNumber = g.dayNumber) :
    f.year = g.year ∧ f.month = g.month ∧ f.day = g.day := by
  have bf := dayNumber_bounds hf
  have bg := dayNumber_bounds hg
  have hy : f.year = g.year := by
    rcases Nat.lt_trichotomy f.year g.year with hlt | heq | hgt
    · have := daysToYear_mono (show f.year - 1970 + 1 ≤ g.year - 1970 by have := hf.1; omega)
      omega
    · exact heq
    · have := daysToYear_mono (show g.year - 1970 + 1 ≤ f.year - 1970 by have := hg.1; omega)
      omega
  have df := dayOfYear_lt hf
  have dg := dayOfYear_lt hg
  unfold Fields.dayNumber at h
  rw [hy] at h df
  have hm : f.month = g.month := by
    rcases Nat.lt_trichotomy f.month g.month with hlt | heq | hgt
    · have := daysToMonth_mono (y := g.year) (show f.month ≤ g.month - 1 by omega)
      omega
    · exact heq
    · have := daysToMonth_mono (y := g.year) (show g.month ≤ f.month - 1 by omega)
      omega
  rw [hm] at h
  have := hf.2.2.2.2.1
  have := hg.2.2.2.2.1
  exact ⟨hy, hm, by omega⟩

/-- Two real date-times with the same instant are equal: the specification's calendar is a
bijection onto its range. -/
theorem instant_inj {f g : Fields} (hf : f.Real) (hg : g.Real) (h : f.instant = g.instant) : f = g := by
  obtain ⟨-, -, -, -, -, -, f7, f8, f9⟩ := id hf
  obtain ⟨-, -, -, -, -, -, g7, g8, g9⟩ := id hg
  unfold Fields.instant at h
  obtain ⟨h1, h2, h3⟩ := dayNumber_inj hf hg (by omega)
  have : f.dayNumber = g.dayNumber := by omega
  obtain ⟨y, m, d, ho, mi, s⟩ := f
  obtain ⟨y', m', d', ho', mi', s'⟩ := g
  simp only at h1 h2 h3 f7 f8 f9 g7 g8 g9 h
  subst h1 h2 h3
  congr 1 <;> omega

/-! ### The written texts are plain ASCII without surrounding whitespace -/

theorem shortDay_ascii {w : Nat} (h : w < 7) : isAscii (shortDay w) = true ∧ ∃ c s, shortDay w = c :: s ∧ isWs c = false := by
  obtain rfl | rfl | rfl | rfl | rfl | rfl | rfl :
    w = 0 ∨ w = 1 ∨ w = 2 ∨ w = 3 ∨ w = 4 ∨ w = 5 ∨ w = 6 := by omega
  all_goals exact ⟨by decide, _, _, rfl, by decide⟩

theorem longDay_ascii {w : Nat} (h : w < 7) : isAscii (longDay w) = true ∧ ∃ c s, longDay w = c :: s ∧ isWs c = false := by
  obtain rfl | rfl | rfl | rfl | rfl | rfl | rfl :
    w = 0 ∨ w = 1 ∨ w = 2 ∨ w = 3 ∨ w = 4 ∨ w = 5 ∨ w = 6 := by omega
  all_goals exact ⟨by decide, _, _, rfl, by decide⟩

theorem monthStr_ascii {m : Nat} (h1 : 1 ≤ m) (h2 : m ≤ 12) : isAscii (monthStr m) = true := by
  obtain rfl | rfl | rfl | rfl | rfl | rfl | rfl | rfl | rfl | rfl | rfl | rfl :
      m = 1 ∨ m = 2 ∨ m = 3 ∨ m = 4 ∨ m = 5 ∨ m = 6 ∨ m = 7 ∨ m = 8 ∨ m = 9 ∨ m = 10 ∨ m = 11 ∨ m = 12 := by
      omega
  all_goals decide

theorem digitChar_ascii {n : Nat} (h : n < 10) : isAsciiC (Char.ofNat (48 + n)) = true := by
  unfold isAsciiC
  rw [toNat_ofNat (by omega)]
  simp; omega

theorem digitChar_ws {n : Nat} (h : n < 10) : isWs (Char.ofNat (48 + n)) = false := by
  apply isWs_of_isDigit
  unfold isDigit
  rw [toNat_ofNat (by omega)]
  simp; omega

theorem d2_ascii {n : Nat} (h : n < 100) : isAscii (d2 n) = true := by
  simp [d2, digitChar_ascii (show n / 10 < 10 by omega), digitChar_ascii (show n % 10 < 10 by omega)]

theorem d4_ascii {n : Nat} (h : n < 10000) : isAscii (d4 n) = true := by
  simp [d4, d2_ascii (show n / 100 < 100 by omega), d2_ascii (show n % 100 < 100 by omega)]

theorem clock_ascii {f : Fields} (h : f.Real) : isAscii f.clock = true := by
  obtain ⟨-, -, -, -, -, -, h7, h8, h9⟩ := h
  unfold Fields.clock
  simp [d2_ascii (show f.hour < 100 by omega), d2_ascii (show f.minute < 100 by omega),
    d2_ascii (show f.second < 100 by omega)]
  decide

theorem imf_plain {f : Fields} (h : f.Real) : isAscii f.imf = true ∧ Trimmed f.imf := by
  obtain ⟨h1, h2, h3, h4, h5, h6, -⟩ := real_loose h
  obtain ⟨hw, c, s, hs, hc⟩ := shortDay_ascii (weekday_lt f.dayNumber)
  refine ⟨?_, ?_, ?_⟩
  · unfold Fields.imf
    simp [hw, d2_ascii (show f.day < 100 by omega), d4_ascii (show f.year < 10000 by omega), clock_ascii h,
      monthStr_ascii h3 h4]
    decide
  · unfold Fields.imf
    rw [hs]
    intro x hx
    simp at hx
    rw [← hx]; exact hc
  · unfold Fields.imf
    intro x hx
    rw [List.getLast?_append] at hx
    simp at hx
    rw [← hx]; decide

theorem rfc850_plain {f : Fields} (h : f.Real) : isAscii f.rfc850 = true ∧ Trimmed f.rfc850 := by
  obtain ⟨h1, h2, h3, h4, h5, h6, -⟩ := real_loose h
  obtain ⟨hw, c, s, hs, hc⟩ := longDay_ascii (weekday_lt f.dayNumber)
  refine ⟨?_, ?_, ?_⟩
  · unfold Fields.rfc850
    simp [hw, d2_ascii (show f.day < 100 by omega), d2_ascii (show f.year % 100 < 100 by omega), clock_ascii h,
      monthStr_ascii h3 h4]
    decide
  · unfold Fields.rfc850
    rw [hs]
    intro x hx
    simp at hx
    rw [← hx]; exact hc
  · unfold Fields.rfc850
    intro x hx
    rw [List.getLast?_append] at hx
    simp at hx
    rw [← hx]; decide

theorem asctime_plain {f : Fields} (h : f.Real) : isAscii f.asctime = true ∧ Trimmed f.asctime := by
  obtain ⟨h1, h2, h3, h4, h5, h6, -⟩ := real_loose h
  obtain ⟨hw, c, s, hs, hc⟩ := shortDay_ascii (weekday_lt f.dayNumber)
  refine ⟨?_, ?_, ?_⟩
  · unfold Fields.asctime
    have : isAscii (if f.day < 10 then [' ', Char.ofNat (48 + f.day)] else d2 f.day) = true := by
      split
      · rename_i h'
        simp [digitChar_ascii h']
        decide
      · exact d2_ascii (by omega)
    simp [hw, this, d4_ascii (show f.year < 10000 by omega), clock_ascii h, monthStr_ascii h3 h4]
    decide
  · unfold Fields.asctime
    rw [hs]
    intro x hx
    simp at hx
    rw [← hx]; exact hc
  · unfold Fields.asctime d4 d2
    intro x hx
    rw [List.getLast?_append] at hx
    simp at hx
    rw [← hx]; exact digitChar_ws (by omega)

/-! ### C26 -/

/-- Writing a time of the supported range gives the IMF-fixdate text of the one real calendar
date-time at that second (with the right weekday, by definition of `Fields.imf`), and reading the
text gives the time back in whole seconds. -/
theorem C26_format_parse (t : SysTime) (h0 : 0 ≤ t.secs) (h1 : t.secs < 253402300800) :
    ∃ f : Fields, f.Real ∧ (f.instant : Int) = t.secs ∧ (∀ g : Fields, g.Real → (g.instant : Int) = t.secs → g = f) ∧
      fmtHttpDate t = .ok f.imf ∧ parseHttpDate f.imf = .ok ⟨t.secs, 0⟩ := by
  obtain ⟨f, hf, hi, hfmt⟩ := fmtHttpDate_in h0 h1
  refine ⟨f, hf, hi, fun g hg hgi => instant_inj hg hf (by omega), hfmt, ?_⟩
  obtain ⟨ha, ht⟩ := imf_plain hf
  rw [parseHttpDate_iff, trim_of_trimmed ht]
  exact ⟨ha, f, .inl (imfText_imf hf), real_loose hf, by rw [hi]⟩

example : fmtHttpDate ⟨784111777, 5⟩ = .ok s!!"Sun, 06 Nov 1994 08:49:37 GMT" := by decide +kernel
example : (⟨1994, 11, 6, 8, 49, 37⟩ : Fields).instant = 784111777 := by decide +kernel

/-- Outside the range writing panics, and only there. -/
theorem C26_range (t : SysTime) :
    fmtHttpDate t = .panic ↔ t.secs < 0 ∨ (⟨9999, 12, 31, 23, 59, 59⟩ : Fields).instant < t.secs := by
  have hb : (⟨9999, 12, 31, 23, 59, 59⟩ : Fields).instant = 253402300799 := by
    have hc := daysToYear_closed 8029
    have hm : daysToMonth 9999 11 = 334 := by decide
    unfold Fields.instant Fields.dayNumber
    simp only
    rw [show 9999 - 1970 = 8029 from rfl, show 12 - 1 = 11 from rfl, hm]
    obtain ⟨D, hD⟩ : ∃ D, daysToYear 8029 = D := ⟨_, rfl⟩
    rw [hD] at hc ⊢
    clear hD hm
    simp only [Nat.reduceAdd, Nat.reduceDiv, Nat.reduceMul, Nat.reduceSub] at hc ⊢
    have : D = 2932532 := by omega
    rw [this]
  rw [hb]
  constructor
  · intro h
    by_contra hc
    obtain ⟨f, _, _, _, hfmt, _⟩ := C26_format_parse t (by omega) (by omega)
    rw [h] at hfmt
    cases hfmt
  · intro h
    exact fmtHttpDate_out (by omega)

example : fmtHttpDate ⟨-1, 0⟩ = .panic := by decide +kernel

/-! ### C27 -/

/-- Each layout of a real date-time, with any surrounding ASCII whitespace, reads as its instant. -/
theorem C27_layouts (f : Fields) (hf : f.Real) (w w' : Str) (hw : ∀ c ∈ w, isWs c = true ∧ isAsciiC c = true)
    (hw' : ∀ c ∈ w', isWs c = true ∧ isAsciiC c = true) :
    parseHttpDate (w ++ f.imf ++ w') = .ok ⟨f.instant, 0⟩ ∧
    parseHttpDate (w ++ f.asctime ++ w') = .ok ⟨f.instant, 0⟩ ∧
    (f.year < 2070 → parseHttpDate (w ++ f.rfc850 ++ w') = .ok ⟨f.instant, 0⟩) := by
  have a1 : isAscii w = true := List.all_eq_true.mpr fun c hc => (hw c hc).2
  have a2 : isAscii w' = true := List.all_eq_true.mpr fun c hc => (hw' c hc).2
  have key : ∀ x, isAscii x = true → Trimmed x → DateText x f → parseHttpDate (w ++ x ++ w') = .ok ⟨f.instant, 0⟩ := by
    intro x hx ht hd
    rw [parseHttpDate_iff, trim_surround (fun c hc => (hw c hc).1) (fun c hc => (hw' c hc).1) ht]
    exact ⟨by simp [a1, a2, hx], f, hd, real_loose hf, rfl⟩
  refine ⟨?_, ?_, fun hy => ?_⟩
  · exact key _ (imf_plain hf).1 (imf_plain hf).2 (.inl (imfText_imf hf))
  · exact key _ (asctime_plain hf).1 (asctime_plain hf).2 (.inr (.inr (asctimeText_asctime hf)))
  · exact key _ (rfc850_plain hf).1 (rfc850_plain hf).2 (.inr (.inl (rfc850Text_rfc850 hf hy)))

example : (⟨1994, 11, 6, 8, 49, 37⟩ : Fields).Real := by decide +kernel
example : (⟨1994, 11, 6, 8, 49, 37⟩ : Fields).rfc850 = s!!"Sunday, 06-Nov-94 08:49:37 GMT" := by decide +kernel
example : (⟨1994, 11, 6, 8, 49, 37⟩ : Fields).asctime = s!!"Sun Nov  6 08:49:37 1994" := by decide +kernel

/-- Exactly which texts are accepted, and what they read as; everything else is status 400. -/
theorem C27_accepts (s : Str) :
    (∀ t, parseHttpDate s = .ok t ↔
      isAscii s = true ∧ ∃ f : Fields, DateText (trim s) f ∧ f.Loose ∧ t = ⟨f.instant, 0⟩) ∧
    ((∃ t, parseHttpDate s = .ok t) ∨ parseHttpDate s = .err 400) :=
  ⟨fun _ => parseHttpDate_iff, parseHttpDate_clean s⟩

example : parseHttpDate s!!"  Sunday, 06-Nov-94 08:49:37 GMT " = .ok ⟨784111777, 0⟩ := by decide +kernel
example : parseHttpDate s!!"Sun, 06 Nov 1994 24:49:37 GMT" = .err 400 := by decide +kernel

/-! ### C28 -/

/-- 31 February and a wrong weekday are accepted. -/
theorem C28_violated_day_and_weekday :
    (∃ (s : Str) (f : Fields) (t : SysTime), ImfText s f ∧ ¬ f.Real ∧ parseHttpDate s = .ok t) ∧
    (∃ (s : Str) (f : Fields) (t : SysTime), f.Real ∧ ImfText s f ∧ shortDay (weekday f.dayNumber) ≠ s.take 3 ∧ parseHttpDate s = .ok t) := by
  refine ⟨⟨s!!"Wed, 31 Feb 2021 00:00:00 GMT", ⟨2021, 2, 31, 0, 0, 0⟩, ⟨1614729600, 0⟩, ?_, ?_, ?_⟩,
    ⟨s!!"Mon, 06 Nov 1994 08:49:37 GMT", ⟨1994, 11, 6, 8, 49, 37⟩, ⟨784111777, 0⟩, ?_, ?_, ?_, ?_⟩⟩
  · have h := parseImf_sound (s := s!!"Wed, 31 Feb 2021 00:00:00 GMT") (d := ⟨0, 0, 0, 31, 2, 2021, 3⟩) (by decide +kernel)
    exact h.1
  · intro h
    have := h.2.2.2.2.2.1
    exact absurd this (by decide)
  · decide +kernel
  · decide +kernel
  · have h := parseImf_sound (s := s!!"Mon, 06 Nov 1994 08:49:37 GMT") (d := ⟨37, 49, 8, 6, 11, 1994, 1⟩) (by decide +kernel)
    exact h.1
  · decide +kernel
  · decide +kernel

/-- What does hold of every accepted text: it spells a month, an hour, a minute, a second in range
and a day of at most 31 – at most three days past the end of the month – and the time read is the
instant of the fields (counting past the end of the month when the day does not exist).
Missing: the day may not exist in the month, and the weekday name is arbitrary. -/
theorem C28_ranges_partial (s : Str) (t : SysTime) (h : parseHttpDate s = .ok t) :
    ∃ f : Fields, DateText (trim s) f ∧ f.Loose ∧ t = ⟨f.instant, 0⟩ ∧
      (f.Real ∨ ∃ g : Fields, g.Real ∧ g.day ≤ 3 ∧ g.year = f.year ∧ g.month = f.month + 1 ∧
        g.hour = f.hour ∧ g.minute = f.minute ∧ g.second = f.second ∧
        g.day + monthLen f.year f.month = f.day ∧ g.instant = f.instant) := by
  obtain ⟨-, f, h1, h2, h3⟩ := parseHttpDate_iff.mp h
  refine ⟨f, h1, h2, h3, ?_⟩
  obtain ⟨a1, a2, a3, a4, a5, a6, a7, a8, a9⟩ := h2
  by_cases hd : f.day ≤ monthLen f.year f.month
  · exact .inl ⟨a1, a2, a3, a4, a5, hd, a7, a8, a9⟩
  · right
    have hm12 : f.month < 12 ∧ 28 ≤ monthLen f.year f.month := by
      obtain h | h | h | h | h | h | h | h | h | h | h | h :
        f.month = 1 ∨ f.month = 2 ∨ f.month = 3 ∨ f.month = 4 ∨ f.month = 5 ∨ f.month = 6 ∨ f.month = 7 ∨
        f.month = 8 ∨ f.month = 9 ∨ f.month = 10 ∨ f.month = 11 ∨ f.month = 12 := by omega
      all_goals (rw [h] at hd ⊢; simp only [monthLen] at hd ⊢)
      all_goals first | omega | (split <;> omega)
    have hlen : ∀ m, 1 ≤ m → m ≤ 12 → 28 ≤ monthLen f.year m := by
      intro m h1 h2
      obtain rfl | rfl | rfl | rfl | rfl | rfl | rfl | rfl | rfl | rfl | rfl | rfl :
        m = 1 ∨ m = 2 ∨ m = 3 ∨ m = 4 ∨ m = 5 ∨ m = 6 ∨ m = 7 ∨ m = 8 ∨ m = 9 ∨ m = 10 ∨ m = 11 ∨ m = 12 := by
        omega
      all_goals simp only [monthLen]
      all_goals first | omega | (split <;> omega)
    refine ⟨⟨f.year, f.month + 1, f.day - monthLen f.year f.month, f.hour, f.minute, f.second⟩, ?_, ?_, rfl, rfl, rfl, rfl, rfl,
      ?_, ?_⟩
    · have := hlen (f.month + 1) (by omega) (by omega)
      exact ⟨a1, a2, by simp only; omega, by simp only; omega, by simp only; omega, by simp only; omega, a7, a8, a9⟩
    · simp only; omega
    · simp only; omega
    · obtain ⟨m, hm⟩ : ∃ m, f.month = m + 1 := ⟨f.month - 1, by omega⟩
      unfold Fields.instant Fields.dayNumber
      simp only [hm, Nat.add_sub_cancel, daysToMonth] at hd ⊢
      congr 4
      omega

example : ∃ t, parseHttpDate s!!"Wed, 31 Feb 2021 00:00:00 GMT" = .ok t := ⟨⟨1614729600, 0⟩, by decide +kernel⟩

end HT
