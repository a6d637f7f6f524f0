import Verif.Spec.StdDate
import Verif.Props.Simple

/-!
C103: HTTP dates as the standard writes them are read as the instants they denote.
-/

namespace HT

open Spec

theorem daysBefore_succ (y : Nat) : daysBefore (y + 1) = daysBefore y + daysToMonth y 12 := rfl

theorem daysBefore_add (k : Nat) : daysBefore (1970 + k) = daysBefore 1970 + daysToYear k := by
  induction k with
  | zero => rw [Nat.add_zero, daysToYear, Nat.add_zero]
  | succ k ih => rw [← Nat.add_assoc, daysBefore_succ, ih, daysToYear, Nat.add_assoc]

theorem moment_instant {f : Fields} (h : 1970 ≤ f.year) : f.moment = f.instant := by
  obtain ⟨k, hk⟩ := Nat.exists_eq_add_of_le h
  unfold Fields.moment Fields.instant Fields.dayNumber
  rw [hk, daysBefore_add, Nat.add_sub_cancel_left]
  generalize daysBefore 1970 = b
  omega

theorem daysToMonth_step {y : Nat} : 365 ≤ daysToMonth y 12 := by
  rw [daysToMonth_12]; split <;> omega

theorem daysBefore_far (y n : Nat) : daysBefore y + 365 * n ≤ daysBefore (y + n) := by
  induction n with
  | zero => exact Nat.le_refl _
  | succ n ih =>
    rw [← Nat.add_assoc, daysBefore_succ, Nat.mul_succ, ← Nat.add_assoc]
    exact Nat.add_le_add ih daysToMonth_step

theorem daysToMonth_small {y m : Nat} (h : m ≤ 12) : daysToMonth y m ≤ 366 := by
  refine Nat.le_trans (daysToMonth_mono h) ?_
  rw [daysToMonth_12]; split <;> omega

/-- A date two years before is before. -/
theorem moment_lt {f g : Fields} (hm : f.month ≤ 12) (hd : f.day ≤ 31) (hh : f.hour < 24) (hmi : f.minute < 60)
    (hs : f.second ≤ 60) (hy : f.year + 2 ≤ g.year) : f.moment < g.moment := by
  have h1 := daysToMonth_small (y := f.year) (m := f.month - 1) (by omega)
  obtain ⟨n, hn⟩ := Nat.exists_eq_add_of_le hy
  have h2 := daysBefore_far f.year (2 + n)
  rw [← Nat.add_assoc, ← hn] at h2
  unfold Fields.moment
  generalize daysBefore 1970 = b
  omega

theorem dateText_unique {s : Str} {f g : Fields} (hf : DateText s f) (hg : DateText s g) : f = g := by
  obtain ⟨w, -, -, h1⟩ := parseAny_complete hf
  obtain ⟨w', -, -, h2⟩ := parseAny_complete hg
  rw [h1] at h2
  injection h2 with h2
  cases f; cases g
  simp only [HttpDate.mk.injEq] at h2
  simp only [Fields.mk.injEq]
  omega

theorem standard_small {f : Fields} (h : f.Standard) : f.day ≤ 31 := Nat.le_trans h.2.2.2.2.1 monthLen_le

/-- The year that is read. -/
def yearRead (f : Fields) : DateLayout → Nat
  | .rfc850 => if f.year % 100 < 70 then 2000 + f.year % 100 else 1900 + f.year % 100
  | _ => f.year

theorem written_text {f : Fields} (h : f.Standard) {w : Nat} (hw : w < 7) (l : DateLayout) :
    DateText (f.written w l) { f with year := yearRead f l } := by
  have hd := standard_small h
  obtain ⟨h1, h2, h3, h4, -, h6, h7, h8⟩ := h
  have hc : ∀ y, ClockText f.clock { f with year := y } := fun y =>
    ⟨d2 f.hour, d2 f.minute, d2 f.second, rfl, numText_d2 (by omega), numText_d2 (by omega), numText_d2 (by omega)⟩
  cases l with
  | imf => exact .inl ⟨_, d2 f.day, d4 f.year, f.clock, shortDay_mem hw, numText_d2 (by omega), numText_d4 (by omega),
      hc _, h2, h3, rfl⟩
  | rfc850 => exact .inr (.inl ⟨_, d2 f.day, d2 (f.year % 100), f.clock, f.year % 100, ' ', longDay_mem hw,
      numText_d2 (by omega), numText_d2 (by omega), hc _, h2, h3, rfl, rfl⟩)
  | asctime =>
    refine .inr (.inr ⟨_, _, d4 f.year, f.clock, shortDay_mem hw, ?_, numText_d4 (by show f.year < 10000; omega), hc _, h2, h3, rfl⟩)
    show NumText 2 (if f.day < 10 then _ else _) f.day ∨ _
    split
    · exact .inr ⟨_, rfl, numText_d1 (by assumption)⟩
    · exact .inl (numText_d2 (by omega))

theorem written_plain {f : Fields} (h : f.Standard) {w : Nat} (hw : w < 7) (l : DateLayout) :
    isAscii (f.written w l) = true ∧ Trimmed (f.written w l) := by
  have hd := standard_small h
  obtain ⟨h1, h2, h3, h4, -, h6, h7, h8⟩ := h
  have hcl : isAscii f.clock = true := by
    unfold Fields.clock
    simp [d2_ascii (show f.hour < 100 by omega), d2_ascii (show f.minute < 100 by omega),
      d2_ascii (show f.second < 100 by omega)]
    decide
  obtain ⟨ha, c, s, hs, hc⟩ := shortDay_ascii hw
  obtain ⟨ha', c', s', hs', hc'⟩ := longDay_ascii hw
  cases l with
  | imf =>
    refine ⟨?_, ?_, ?_⟩
    · unfold Fields.written
      simp [ha, d2_ascii (show f.day < 100 by omega), d4_ascii (show f.year < 10000 by omega), hcl, monthStr_ascii h2 h3]
      decide
    · unfold Fields.written
      simp only
      rw [hs]
      intro x hx
      simp at hx
      rw [← hx]; exact hc
    · unfold Fields.written
      intro x hx
      simp only at hx
      rw [List.getLast?_append] at hx
      simp at hx
      rw [← hx]; decide
  | rfc850 =>
    refine ⟨?_, ?_, ?_⟩
    · unfold Fields.written
      simp [ha', d2_ascii (show f.day < 100 by omega), d2_ascii (show f.year % 100 < 100 by omega), hcl, monthStr_ascii h2 h3]
      decide
    · unfold Fields.written
      simp only
      rw [hs']
      intro x hx
      simp at hx
      rw [← hx]; exact hc'
    · unfold Fields.written
      intro x hx
      simp only at hx
      rw [List.getLast?_append] at hx
      simp at hx
      rw [← hx]; decide
  | asctime =>
    refine ⟨?_, ?_, ?_⟩
    · unfold Fields.written
      have : isAscii (if f.day < 10 then [' ', Char.ofNat (48 + f.day)] else d2 f.day) = true := by
        split
        · rename_i h'
          simp [digitChar_ascii h']
          decide
        · exact d2_ascii (by omega)
      simp [ha, this, d4_ascii (show f.year < 10000 by omega), hcl, monthStr_ascii h2 h3]
      decide
    · unfold Fields.written
      simp only
      rw [hs]
      intro x hx
      simp at hx
      rw [← hx]; exact hc
    · unfold Fields.written d4 d2
      intro x hx
      simp only at hx
      rw [List.getLast?_append] at hx
      simp at hx
      rw [← hx]; exact digitChar_ws (by omega)

/-- What is read from a date as the standard writes it. -/
theorem written_read {f : Fields} (h : f.Standard) {w : Nat} (hw : w < 7) (l : DateLayout) (t : SysTime) :
    parseHttpDate (f.written w l) = .ok t ↔
      1970 ≤ yearRead f l ∧ f.second < 60 ∧ t = ⟨({ f with year := yearRead f l } : Fields).moment, 0⟩ := by
  obtain ⟨ha, ht⟩ := written_plain h hw l
  have hx := written_text h hw l
  have hd := standard_small h
  obtain ⟨h1, h2, h3, h4, h5, h6, h7, h8⟩ := h
  have hy : yearRead f l ≤ 9999 := by
    cases l
    · exact h1
    · simp only [yearRead]; split <;> omega
    · exact h1
  rw [parseHttpDate_iff, trim_of_trimmed ht]
  constructor
  · rintro ⟨-, g, hg, hl, rfl⟩
    cases dateText_unique hx hg
    refine ⟨hl.1, hl.2.2.2.2.2.2.2.2, ?_⟩
    rw [moment_instant hl.1]
  · rintro ⟨h9, h10, rfl⟩
    refine ⟨ha, _, hx, ⟨h9, hy, h2, h3, h4, hd, h6, h7, h10⟩, ?_⟩
    rw [moment_instant h9]

theorem header_read {d : DateHeader} {h : Headers} {vs : List Str} {v : Str} (hg : h.get d.name = some (vs ++ [v]))
    (hv : isAscii v = true ∧ Trimmed v) : d.fromHeaders h = (parseHttpDate v).map some := by
  have hr : d.fromHeaders h = (d.read v).map some := readLast_snoc hg
  rw [hr]
  rcases dateHeader_read d v with e | e <;> rw [e]
  rw [trim_of_trimmed hv.2]

/-- The date meant is determined by what is written. -/
theorem C103_meant_once (f g now : Fields) (hf : f.MeantAt now .rfc850) (hg : g.MeantAt now .rfc850)
    (hy : f.year % 100 = g.year % 100) (h : { f with year := g.year } = g) : f = g := by
  have h1 := hf.1; have h2 := hf.2; have h3 := hg.1; have h4 := hg.2
  rw [← h] at h3 h4
  unfold Fields.key Fields.later at *
  simp only at *
  have : f.year = g.year := by omega
  rw [← h, ← this]

example : (⟨1994, 11, 6, 8, 49, 37⟩ : Fields).MeantAt ⟨2021, 5, 1, 0, 0, 0⟩ .rfc850 ∧
    (⟨2070, 11, 6, 8, 49, 37⟩ : Fields).MeantAt ⟨2021, 5, 1, 0, 0, 0⟩ .rfc850 := by
  unfold Fields.MeantAt; decide +kernel

/-- C103: a date of the standard in any layout, whatever day of the week is named, is read as the instant it means
exactly if it is not before 1970, is no leap second, and does not leave the window 1970 to 2069 when the year has two
digits. Missing: the other dates, see below. -/
theorem C103_dates_partial (d : DateHeader) (h : Headers) (vs : List Str) (f : Fields) (w : Nat) (l : DateLayout)
    (hf : f.Standard) (hw : w < 7) (hg : h.get d.name = some (vs ++ [f.written w l])) :
    d.fromHeaders h = .ok (some ⟨f.moment, 0⟩) ↔
      1970 ≤ f.year ∧ f.second < 60 ∧ (l = .rfc850 → f.year < 2070) := by
  have hm : ∀ (r : Res SysTime) t, r.map some = .ok (some t) ↔ r = .ok t := by
    intro r t; cases r <;> simp [Res.map]
  rw [header_read hg (written_plain hf hw l), hm, written_read hf hw l]
  have hd := standard_small hf
  obtain ⟨h1, h2, h3, h4, h5, h6, h7, h8⟩ := hf
  constructor
  · rintro ⟨h9, h10, h11⟩
    injection h11 with h11
    cases l with
    | imf => exact ⟨h9, h10, fun hl => by cases hl⟩
    | asctime => exact ⟨h9, h10, fun hl => by cases hl⟩
    | rfc850 =>
      have hlt1 := moment_lt (f := f) (g := { f with year := yearRead f .rfc850 }) h3 hd h6 h7 h8
      have hlt2 := moment_lt (f := { f with year := yearRead f .rfc850 }) (g := f) h3 hd h6 h7 h8
      rw [← h11] at hlt1 hlt2
      have hyr : yearRead f .rfc850 % 100 = f.year % 100 ∧ 1970 ≤ yearRead f .rfc850 ∧ yearRead f .rfc850 < 2070 := by
        simp only [yearRead]; split <;> omega
      have e1 : ¬ f.year + 2 ≤ yearRead f .rfc850 := fun h => absurd (hlt1 h) (Int.lt_irrefl _)
      have e2 : ¬ yearRead f .rfc850 + 2 ≤ f.year := fun h => absurd (hlt2 h) (Int.lt_irrefl _)
      exact ⟨by omega, h10, fun _ => by omega⟩
  · rintro ⟨h9, h10, h11⟩
    have hy : yearRead f l = f.year := by
      cases l with
      | imf => rfl
      | asctime => rfl
      | rfc850 =>
        have := h11 rfl
        simp only [yearRead]; split <;> omega
    rw [hy]
    exact ⟨h9, h10, rfl⟩

example : parseHttpDate ((⟨1994, 11, 6, 8, 49, 37⟩ : Fields).written 6 .rfc850) = .ok ⟨784111777, 0⟩ ∧
    (⟨1994, 11, 6, 8, 49, 37⟩ : Fields).moment = 784111777 ∧
    (⟨1994, 11, 6, 8, 49, 37⟩ : Fields).written 6 .rfc850 = s!!"Sunday, 06-Nov-94 08:49:37 GMT" :=
  ⟨by decide +kernel, by decide +kernel, by decide +kernel⟩

/-- C103 is violated by leap seconds and by dates before 1970: they are refused. -/
theorem C103_violated_refused (d : DateHeader) (h : Headers) (vs : List Str) (f : Fields) (w : Nat) (l : DateLayout)
    (hf : f.Standard) (hw : w < 7) (hg : h.get d.name = some (vs ++ [f.written w l]))
    (hbad : f.second = 60 ∨ f.year < 1970 ∧ l ≠ .rfc850) : d.fromHeaders h = .err 400 := by
  rw [header_read hg (written_plain hf hw l)]
  rcases parseHttpDate_clean (f.written w l) with ⟨t, ht⟩ | ht
  · obtain ⟨h1, h2, -⟩ := (written_read hf hw l t).mp ht
    rcases hbad with hb | ⟨hb, hl⟩
    · omega
    · cases l with
      | imf => exact absurd h1 (by simp only [yearRead]; omega)
      | asctime => exact absurd h1 (by simp only [yearRead]; omega)
      | rfc850 => exact absurd rfl hl
  · rw [ht]; rfl

example : (⟨2016, 12, 31, 23, 59, 60⟩ : Fields).Standard ∧
    parseHttpDate ((⟨2016, 12, 31, 23, 59, 60⟩ : Fields).written 5 .imf) = .err 400 ∧
    parseHttpDate s!!"Tue, 01 Jan 1963 00:00:00 GMT" = .err 400 :=
  ⟨by unfold Fields.Standard; decide, by decide +kernel, by decide +kernel⟩

/-- C103 is violated by two-digit years: from 2021 on there are always dates, not more than 50 years ahead, that are
read as being a century or more earlier. -/
theorem C103_violated_window (now : Fields) (hn : now.Standard) (h1 : 2021 ≤ now.year) (h2 : now.year ≤ 9949) :
    ∃ f : Fields, f.Standard ∧ f.MeantAt now .rfc850 ∧ now.year < f.year ∧
      ∀ (d : DateHeader) (h : Headers) (vs : List Str) (w : Nat), w < 7 →
        h.get d.name = some (vs ++ [f.written w .rfc850]) →
        ∃ t, d.fromHeaders h = .ok (some ⟨t, 0⟩) ∧ t < f.moment ∧ t < now.moment := by
  obtain ⟨a1, a2, a3, a4, a5, a6, a7, a8⟩ := hn
  have hnd : now.day ≤ 31 := Nat.le_trans a5 monthLen_le
  have hf : (⟨now.year + 50, 1, 1, 0, 0, 0⟩ : Fields).Standard :=
    ⟨by simp only; omega, Nat.le_refl 1, by simp, Nat.le_refl 1, by simp [monthLen], by simp, by simp, by simp⟩
  refine ⟨⟨now.year + 50, 1, 1, 0, 0, 0⟩, hf, ⟨?_, ?_⟩, by simp only; omega, fun d h vs w hw hg => ?_⟩
  · unfold Fields.key Fields.later; simp only; omega
  · unfold Fields.key Fields.later; simp only; omega
  · refine ⟨(⟨yearRead ⟨now.year + 50, 1, 1, 0, 0, 0⟩ .rfc850, 1, 1, 0, 0, 0⟩ : Fields).moment, ?_, ?_, ?_⟩
    · rw [header_read hg (written_plain hf hw _), (written_read hf hw .rfc850 _).mpr ⟨?_, by simp, rfl⟩]
      · rfl
      · simp only [yearRead]; split <;> omega
    · refine moment_lt (by simp) (by simp) (by simp) (by simp) (by simp) ?_
      simp only [yearRead]; split <;> omega
    · refine moment_lt (by simp) (by simp) (by simp) (by simp) (by simp) ?_
      simp only [yearRead]; split <;> omega

example : parseHttpDate ((⟨2071, 1, 1, 0, 0, 0⟩ : Fields).written 3 .rfc850) = .ok ⟨31536000, 0⟩ ∧
    (⟨1971, 1, 1, 0, 0, 0⟩ : Fields).moment = 31536000 := ⟨by decide +kernel, by decide +kernel⟩

end HT
