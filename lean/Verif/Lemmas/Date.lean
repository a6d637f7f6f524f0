import Verif.Model.Date
import Verif.Spec.Date
import Verif.Lemmas.Num

/-! Lemmas about the calendar and the date reader/writer. -/

namespace HT
open Spec

theorem daysToMonth_12 (y : Nat) : daysToMonth y 12 = if Leap y then 366 else 365 := by
  simp only [daysToMonth, monthLen]
  split <;> rfl

theorem daysToMonth_lt {y m : Nat} (h : m ≤ 11) :
    daysToMonth y m = [0, 31, 59, 90, 120, 151, 181, 212, 243, 273, 304, 334].getD m 0
      + if m ≥ 2 ∧ Leap y then 1 else 0 := by
  by_cases hl : Leap y <;>
    (rcases m with _ | _ | _ | _ | _ | _ | _ | _ | _ | _ | _ | _ | m <;>
      first | omega | simp [daysToMonth, monthLen, hl])

theorem daysToYear_closed (k : Nat) :
    daysToYear k + (492 + (1969 + k) / 100 + 4) = 365 * k + (1969 + k) / 4 + 19 + (1969 + k) / 400 := by
  induction k with
  | zero => rfl
  | succ k ih =>
    rw [daysToYear, daysToMonth_12]
    by_cases hl : Leap (1970 + k)
    · rw [if_pos hl]; unfold Leap at hl; omega
    · rw [if_neg hl]; unfold Leap at hl; omega

open HttpDate

/-- Truncating division by a positive constant on nonnegative numbers. -/
theorem tdiv_nonneg_eq {a b : Int} (h : 0 ≤ a) : a.tdiv b = a / b := Int.tdiv_eq_ediv_of_nonneg h
theorem tmod_nonneg_eq {a b : Int} (h : 0 ≤ a) : a.tmod b = a % b := Int.tmod_eq_emod_of_nonneg h

theorem civil_qc (days : Int) (h1 : -11017 ≤ days) (h2 : days < 2921880) :
    ∃ qc rem : Int, (if days.tmod 146097 < 0 then (days.tdiv 146097 - 1, days.tmod 146097 + 146097)
      else (days.tdiv 146097, days.tmod 146097)) = (qc, rem) ∧ days = 146097 * qc + rem ∧
      0 ≤ rem ∧ rem < 146097 ∧ -1 ≤ qc ∧ qc ≤ 19 := by
  by_cases hd : 0 ≤ days
  · rw [tdiv_nonneg_eq hd, tmod_nonneg_eq hd, if_neg (by omega)]
    exact ⟨_, _, rfl, by omega, by omega, by omega, by omega, by omega⟩
  · have h3 : days.tdiv 146097 = 0 := by
      have := Int.neg_tdiv (-days) 146097
      rw [Int.neg_neg] at this
      rw [this, tdiv_nonneg_eq (by omega)]
      omega
    have h4 : days.tmod 146097 = days := by
      have := Int.neg_tmod (-days) 146097
      rw [Int.neg_neg] at this
      rw [this, tmod_nonneg_eq (by omega)]
      omega
    rw [h3, h4, if_pos (by omega)]
    exact ⟨_, _, rfl, by omega, by omega, by omega, by omega, by omega⟩

theorem civil_wd (days : Int) (h1 : -11017 ≤ days) :
    (if (3 + days).tmod 7 ≤ 0 then (3 + days).tmod 7 + 7 else (3 + days).tmod 7)
      = (days + 11017 + 3) % 7 + 1 := by
  by_cases hd : 0 ≤ 3 + days
  · rw [tmod_nonneg_eq hd]
    split <;> omega
  · have h4 : (3 + days).tmod 7 = -((-(3 + days)) % 7) := by
      have := Int.neg_tmod (-(3 + days)) 7
      rw [Int.neg_neg] at this
      rw [this, tmod_nonneg_eq (by omega)]
    rw [h4]
    split <;> omega

theorem monthLoop_lt {len m rem : Int} (rest : List Int) (h : rem < len) :
    monthLoop (len :: rest) m rem = (m + 1, rem) := by rw [monthLoop, if_pos h]

theorem monthLoop_ge {len m rem : Int} (rest : List Int) (h : len ≤ rem) :
    monthLoop (len :: rest) m rem = monthLoop rest (m + 1) (rem - len) := by
  rw [monthLoop, if_neg (by omega)]

/-- The month loop: month index (March = 1) and remaining days. -/
theorem monthLoop_spec (rem : Int) (h0 : 0 ≤ rem) (h1 : rem < 366) :
    ∃ m d : Int, monthLoop [31, 30, 31, 30, 31, 31, 30, 31, 30, 31, 31, 29] 0 rem = (m, d) ∧
      ((m = 1 ∧ d = rem ∧ rem < 31) ∨ (m = 2 ∧ d = rem - 31 ∧ 31 ≤ rem ∧ rem < 61)
      ∨ (m = 3 ∧ d = rem - 61 ∧ 61 ≤ rem ∧ rem < 92) ∨ (m = 4 ∧ d = rem - 92 ∧ 92 ≤ rem ∧ rem < 122)
      ∨ (m = 5 ∧ d = rem - 122 ∧ 122 ≤ rem ∧ rem < 153) ∨ (m = 6 ∧ d = rem - 153 ∧ 153 ≤ rem ∧ rem < 184)
      ∨ (m = 7 ∧ d = rem - 184 ∧ 184 ≤ rem ∧ rem < 214) ∨ (m = 8 ∧ d = rem - 214 ∧ 214 ≤ rem ∧ rem < 245)
      ∨ (m = 9 ∧ d = rem - 245 ∧ 245 ≤ rem ∧ rem < 275) ∨ (m = 10 ∧ d = rem - 275 ∧ 275 ≤ rem ∧ rem < 306)
      ∨ (m = 11 ∧ d = rem - 306 ∧ 306 ≤ rem ∧ rem < 337) ∨ (m = 12 ∧ d = rem - 337 ∧ 337 ≤ rem ∧ rem < 366)) := by
  have : rem < 31 ∨ (31 ≤ rem ∧ rem < 61) ∨ (61 ≤ rem ∧ rem < 92) ∨ (92 ≤ rem ∧ rem < 122) ∨
    (122 ≤ rem ∧ rem < 153) ∨ (153 ≤ rem ∧ rem < 184) ∨ (184 ≤ rem ∧ rem < 214) ∨
    (214 ≤ rem ∧ rem < 245) ∨ (245 ≤ rem ∧ rem < 275) ∨ (275 ≤ rem ∧ rem < 306) ∨
    (306 ≤ rem ∧ rem < 337) ∨ (337 ≤ rem ∧ rem < 366) := by omega
  rcases this with h | h | h | h | h | h | h | h | h | h | h | h
  · refine ⟨1, rem - 0, ?_, Or.inl ⟨rfl, by omega, by omega⟩⟩
    rw [monthLoop_lt _ (by omega)]
    exact Prod.ext rfl (by simp)
  · refine ⟨2, rem - 31, ?_, Or.inr (Or.inl ⟨rfl, rfl, h⟩)⟩
    rw [monthLoop_ge _ (by omega)]
    rw [monthLoop_lt _ (by omega)]
    exact Prod.ext rfl (by simp)
  · refine ⟨3, rem - 61, ?_, Or.inr (Or.inr (Or.inl ⟨rfl, rfl, h⟩))⟩
    rw [monthLoop_ge _ (by omega), monthLoop_ge _ (by omega)]
    rw [monthLoop_lt _ (by omega)]
    exact Prod.ext rfl (by simp; omega)
  · refine ⟨4, rem - 92, ?_, Or.inr (Or.inr (Or.inr (Or.inl ⟨rfl, rfl, h⟩)))⟩
    rw [monthLoop_ge _ (by omega), monthLoop_ge _ (by omega), monthLoop_ge _ (by omega)]
    rw [monthLoop_lt _ (by omega)]
    exact Prod.ext rfl (by simp; omega)
  · refine ⟨5, rem - 122, ?_, Or.inr (Or.inr (Or.inr (Or.inr (Or.inl ⟨rfl, rfl, h⟩))))⟩
    rw [monthLoop_ge _ (by omega), monthLoop_ge _ (by omega), monthLoop_ge _ (by omega), monthLoop_ge _ (by omega)]
    rw [monthLoop_lt _ (by omega)]
    exact Prod.ext rfl (by simp; omega)
  · refine ⟨6, rem - 153, ?_, Or.inr (Or.inr (Or.inr (Or.inr (Or.inr (Or.inl ⟨rfl, rfl, h⟩)))))⟩
    rw [monthLoop_ge _ (by omega), monthLoop_ge _ (by omega), monthLoop_ge _ (by omega), monthLoop_ge _ (by omega), monthLoop_ge _ (by omega)]
    rw [monthLoop_lt _ (by omega)]
    exact Prod.ext rfl (by simp; omega)
  · refine ⟨7, rem - 184, ?_, Or.inr (Or.inr (Or.inr (Or.inr (Or.inr (Or.inr (Or.inl ⟨rfl, rfl, h⟩))))))⟩
    rw [monthLoop_ge _ (by omega), monthLoop_ge _ (by omega), monthLoop_ge _ (by omega), monthLoop_ge _ (by omega), monthLoop_ge _ (by omega), monthLoop_ge _ (by omega)]
    rw [monthLoop_lt _ (by omega)]
    exact Prod.ext rfl (by simp; omega)
  · refine ⟨8, rem - 214, ?_, Or.inr (Or.inr (Or.inr (Or.inr (Or.inr (Or.inr (Or.inr (Or.inl ⟨rfl, rfl, h⟩)))))))⟩
    rw [monthLoop_ge _ (by omega), monthLoop_ge _ (by omega), monthLoop_ge _ (by omega), monthLoop_ge _ (by omega), monthLoop_ge _ (by omega), monthLoop_ge _ (by omega), monthLoop_ge _ (by omega)]
    rw [monthLoop_lt _ (by omega)]
    exact Prod.ext rfl (by simp; omega)
  · refine ⟨9, rem - 245, ?_, Or.inr (Or.inr (Or.inr (Or.inr (Or.inr (Or.inr (Or.inr (Or.inr (Or.inl ⟨rfl, rfl, h⟩))))))))⟩
    rw [monthLoop_ge _ (by omega), monthLoop_ge _ (by omega), monthLoop_ge _ (by omega), monthLoop_ge _ (by omega), monthLoop_ge _ (by omega), monthLoop_ge _ (by omega), monthLoop_ge _ (by omega), monthLoop_ge _ (by omega)]
    rw [monthLoop_lt _ (by omega)]
    exact Prod.ext rfl (by simp; omega)
  · refine ⟨10, rem - 275, ?_, Or.inr (Or.inr (Or.inr (Or.inr (Or.inr (Or.inr (Or.inr (Or.inr (Or.inr (Or.inl ⟨rfl, rfl, h⟩)))))))))⟩
    rw [monthLoop_ge _ (by omega), monthLoop_ge _ (by omega), monthLoop_ge _ (by omega), monthLoop_ge _ (by omega), monthLoop_ge _ (by omega), monthLoop_ge _ (by omega), monthLoop_ge _ (by omega), monthLoop_ge _ (by omega), monthLoop_ge _ (by omega)]
    rw [monthLoop_lt _ (by omega)]
    exact Prod.ext rfl (by simp; omega)
  · refine ⟨11, rem - 306, ?_, Or.inr (Or.inr (Or.inr (Or.inr (Or.inr (Or.inr (Or.inr (Or.inr (Or.inr (Or.inr (Or.inl ⟨rfl, rfl, h⟩))))))))))⟩
    rw [monthLoop_ge _ (by omega), monthLoop_ge _ (by omega), monthLoop_ge _ (by omega), monthLoop_ge _ (by omega), monthLoop_ge _ (by omega), monthLoop_ge _ (by omega), monthLoop_ge _ (by omega), monthLoop_ge _ (by omega), monthLoop_ge _ (by omega), monthLoop_ge _ (by omega)]
    rw [monthLoop_lt _ (by omega)]
    exact Prod.ext rfl (by simp; omega)
  · refine ⟨12, rem - 337, ?_, Or.inr (Or.inr (Or.inr (Or.inr (Or.inr (Or.inr (Or.inr (Or.inr (Or.inr (Or.inr (Or.inr (⟨rfl, rfl, h⟩)))))))))))⟩
    rw [monthLoop_ge _ (by omega), monthLoop_ge _ (by omega), monthLoop_ge _ (by omega), monthLoop_ge _ (by omega), monthLoop_ge _ (by omega), monthLoop_ge _ (by omega), monthLoop_ge _ (by omega), monthLoop_ge _ (by omega), monthLoop_ge _ (by omega), monthLoop_ge _ (by omega), monthLoop_ge _ (by omega)]
    rw [monthLoop_lt _ (by omega)]
    exact Prod.ext rfl (by simp; omega)

theorem civil_spec (n : Nat) (hn : n < 2932897) : ∃ y m d w : Nat,
    civil (n : Int) = ((y : Int), (m : Int), (d : Int), (w : Int)) ∧ 1970 ≤ y ∧ y ≤ 9999 ∧ 1 ≤ m ∧ m ≤ 12 ∧
    1 ≤ d ∧ d ≤ monthLen y m ∧ daysToYear (y - 1970) + daysToMonth y (m - 1) + (d - 1) = n ∧
    w = weekday n + 1 := by
  unfold civil
  obtain ⟨qc, rem, hq, hdays, hr0, hr1, hq0, hq1⟩ := civil_qc ((n : Int) - 11017) (by omega) (by omega)
  simp only [hq, civil_wd ((n : Int) - 11017) (by omega)]
  clear hq
  rw [tdiv_nonneg_eq hr0]
  obtain ⟨c, hc, hc0, hc1⟩ : ∃ c : Int, (if rem / 36524 = 4 then rem / 36524 - 1 else rem / 36524) = c ∧
      0 ≤ c ∧ ((c < 3 ∧ c * 36524 ≤ rem ∧ rem < c * 36524 + 36524) ∨
       (c = 3 ∧ c * 36524 ≤ rem ∧ rem ≤ c * 36524 + 36524)) := by
    refine ⟨_, rfl, ?_⟩
    split <;> omega
  simp only [hc]
  clear hc
  obtain ⟨rem1, hrem1⟩ : ∃ r, r = rem - c * 36524 := ⟨_, rfl⟩
  simp only [← hrem1]
  rw [tdiv_nonneg_eq (show 0 ≤ rem1 by omega)]
  obtain ⟨q, hq, hq0', hq1'⟩ : ∃ q : Int, (if rem1 / 1461 = 25 then rem1 / 1461 - 1 else rem1 / 1461) = q ∧
      0 ≤ q ∧ q ≤ 24 ∧ q * 1461 ≤ rem1 ∧ rem1 < q * 1461 + 1461 ∧
        (q = 24 → c < 3 → rem1 < q * 1461 + 1460) := by
    refine ⟨_, rfl, ?_⟩
    split <;> omega
  simp only [hq]
  clear hq
  obtain ⟨rem2, hrem2⟩ : ∃ r, r = rem1 - q * 1461 := ⟨_, rfl⟩
  simp only [← hrem2]
  rw [tdiv_nonneg_eq (show 0 ≤ rem2 by omega)]
  obtain ⟨r, hr, hr0', hr1'⟩ : ∃ r : Int, (if rem2 / 365 = 4 then rem2 / 365 - 1 else rem2 / 365) = r ∧
      0 ≤ r ∧ r ≤ 3 ∧ r * 365 ≤ rem2 ∧ rem2 ≤ r * 365 + 365 ∧ (r < 3 → rem2 < r * 365 + 365) := by
    refine ⟨_, rfl, ?_⟩
    split <;> omega
  simp only [hr]
  clear hr
  obtain ⟨rem3, hrem3⟩ : ∃ s, s = rem2 - r * 365 := ⟨_, rfl⟩
  simp only [← hrem3]
  obtain ⟨m, d, hm, hmd⟩ := monthLoop_spec rem3 (by omega) (by omega)
  simp only [hm]
  clear hm
  obtain ⟨Y, hY⟩ : ∃ Y : Int, Y = 2000 + r + 4 * q + 100 * c + 400 * qc := ⟨_, rfl⟩
  simp only [← hY]
  -- number of days to March 1st of Y
  have hYlo : 1969 ≤ Y := by omega
  have hbase : (n : Int) = 365 * (Y - 1969) + (Y / 4 - 492) - (Y / 100 - 19) + (Y / 400 - 4) - 365 + 59
      + rem3 := by
    have e4 : Y / 4 = 500 + q + 25 * c + 100 * qc := by omega
    have e100 : Y / 100 = 20 + c + 4 * qc := by omega
    have e400 : Y / 400 = 5 + qc := by omega
    rw [e4, e100, e400]
    omega
  have hleap : rem3 = 365 → (Y + 1) % 4 = 0 ∧ ((Y + 1) % 100 ≠ 0 ∨ (Y + 1) % 400 = 0) := by
    intro h
    have h3 : r = 3 := by omega
    have : q = 24 → c = 3 := by omega
    omega
  have hw : ((n : Int) - 11017 + 11017 + 3) % 7 + 1 = ((weekday n + 1 : Nat) : Int) := by
    unfold weekday; omega
  rw [hw]
  have hYhi : Y ≤ 9999 := by omega
  have hYhi' : 11 ≤ m → Y ≤ 9998 := by omega
  have hr30 : 0 ≤ rem3 := by omega
  clear hdays hq0 hq1 hc0 hc1 hq0' hq1' hr0' hr1' hr0 hr1 hrem1 hrem2 hrem3 hY hw
  obtain ⟨y, rfl⟩ : ∃ y : Nat, Y = y := ⟨Y.toNat, by omega⟩
  have hc : daysToYear (y + 1 - 1970) + 492 + y / 100 + 4 = 365 * (y + 1 - 1970) + y / 4 + 19 + y / 400 := by
    have := daysToYear_closed (y + 1 - 1970)
    rw [show 1969 + (y + 1 - 1970) = y by omega] at this
    omega
  have hb : (n : Int) = daysToYear (y + 1 - 1970) - 365 + 59 + rem3 := by omega
  have hY0' : m ≤ 10 → 1970 ≤ y := by
    intro hm
    rcases Nat.lt_or_ge y 1970 with h | h
    · obtain rfl : y = 1969 := by omega
      simp [daysToYear] at hb
      omega
    · exact h
  clear hc hbase
  by_cases hm2 : m + 2 > 12
  · rw [if_pos hm2]
    refine ⟨y + 1, (m - 10).toNat, (d + 1).toNat, weekday n + 1, ?_, by omega, by omega, by omega,
      by omega, by omega, ?_, ?_, rfl⟩
    · rw [Int.toNat_of_nonneg (by omega), Int.toNat_of_nonneg (by omega)]
      rfl
    · have : (m = 11 ∧ (m - 10).toNat = 1) ∨ (m = 12 ∧ (m - 10).toNat = 2) := by omega
      rcases this with ⟨h, h'⟩ | ⟨h, h'⟩
      · rw [h']; simp only [monthLen]; omega
      · rw [h']; simp only [monthLen]
        by_cases hl : Leap (y + 1)
        · rw [if_pos hl]; omega
        · rw [if_neg hl]; unfold Leap at hl; omega
    · rw [daysToMonth_lt (by omega)]
      obtain ⟨D1, hD1⟩ : ∃ D, D = daysToYear (y + 1 - 1970) := ⟨_, rfl⟩
      rw [← hD1] at hb ⊢
      have : (m = 11 ∧ (m - 10).toNat - 1 = 0) ∨ (m = 12 ∧ (m - 10).toNat - 1 = 1) := by omega
      rcases this with ⟨h, h'⟩ | ⟨h, h'⟩ <;> rw [h'] <;> simp <;> omega
  · rw [if_neg hm2]
    have hY0 : 1970 ≤ y := by omega
    have hc2 : daysToYear (y + 1 - 1970) = daysToYear (y - 1970) + if Leap y then 366 else 365 := by
      rw [show y + 1 - 1970 = (y - 1970) + 1 by omega, daysToYear, daysToMonth_12,
        show 1970 + (y - 1970) = y by omega]
    refine ⟨y, (m + 2).toNat, (d + 1).toNat, weekday n + 1, ?_, by omega, by omega, by omega,
      by omega, by omega, ?_, ?_, rfl⟩
    · rw [Int.toNat_of_nonneg (by omega), Int.toNat_of_nonneg (by omega)]
    · rcases hmd with h | h | h | h | h | h | h | h | h | h | h | h <;> obtain ⟨rfl, h⟩ := h <;>
        first | omega | (simp only [Int.reduceAdd, Int.reduceToNat, monthLen]; omega)
    · rw [daysToMonth_lt (by omega)]
      rw [hc2] at hb
      obtain ⟨D0, hD0⟩ : ∃ D, D = daysToYear (y - 1970) := ⟨_, rfl⟩
      rw [← hD0] at hb ⊢
      clear hc2 hD0
      rcases hmd with h | h | h | h | h | h | h | h | h | h | h | h <;> obtain ⟨rfl, h⟩ := h <;>
        first
        | omega
        | (by_cases hl : Leap y <;> simp [hl] at hb ⊢ <;> omega)

end HT
