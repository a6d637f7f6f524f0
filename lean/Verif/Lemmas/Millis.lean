import Verif.Model.ServerTiming
import Verif.Lemmas.Float

/-! Helper lemmas about durations written as milliseconds. -/

namespace HT
open Spec

/-- The error of rounding a number below `2^k`. -/
theorem roundTo_error {p a b k : Nat} (hp : 0 < p) (hb : 0 < b) (hk : p ≤ k) (h : a < b * 2 ^ k) :
    2 * gap a (b * roundTo p a b) ≤ b * 2 ^ (k - p) := by
  have hq : a / b < 2 ^ k := Nat.div_lt_of_lt_mul h
  have he : (a / b).log2 + 1 - p ≤ k - p := by
    by_cases h0 : a / b = 0
    · rw [h0]; simp [Nat.log2_zero]; omega
    · have := (Nat.log2_lt h0).mpr hq
      omega
  unfold roundTo
  simp only
  have h1 := roundDiv_error (a := a) (b := b * 2 ^ ((a / b).log2 + 1 - p)) (Nat.mul_pos hb (Nat.two_pow_pos _))
  generalize roundDiv a (b * 2 ^ ((a / b).log2 + 1 - p)) = r at *
  rw [Nat.mul_comm r, ← Nat.mul_assoc]
  exact Nat.le_trans h1 (Nat.mul_le_mul_left b (Nat.pow_le_pow_right (by omega) he))

namespace Duration

/-- The magnitude of the number of milliseconds written for a duration. -/
def millisMag (d : Duration) : Nat := Fl.mulMag f64Format d.asSecsF64 (Fl.natMag f64Format 1000)

/-- What becomes of a duration that is written and read. -/
def back (d : Duration) : Res Duration := (fromSecsF64 (.fin false d.millisMag)).map fun x => x.divU32 1000

theorem natMag_exact {n : Nat} (h : n < 2 ^ 53) : Fl.natMag f64Format n = n * 2 ^ 1074 := by
  have := roundTo_of_representable (p := 53) (n := n * 2 ^ 1074) (by omega) ⟨n, 1074, h, rfl⟩ (b := 1) (by omega)
  rw [Nat.one_mul] at this
  exact this

theorem asSecsF64_eq (d : Duration) (hn : d.nanos < 1000000000) :
    d.asSecsF64 = roundTo 53 (Fl.natMag f64Format d.secs + roundTo 53 (d.nanos * 2 ^ 1074) 1000000000) 1 := by
  have hdiv : Fl.divMag f64Format (Fl.natMag f64Format d.nanos) (Fl.natMag f64Format 1000000000) =
      roundTo 53 (d.nanos * 2 ^ 1074) 1000000000 := by
    rw [natMag_exact (by omega), natMag_exact (by omega)]
    unfold Fl.divMag
    show roundTo 53 (d.nanos * 2 ^ 1074 * 2 ^ 1074) (1000000000 * 2 ^ 1074) = _
    generalize hu : 2 ^ 1074 = u
    have hu0 : 0 < u := by rw [← hu]; exact Nat.two_pow_pos _
    have key : ∀ a b e, roundDiv (a * u) (b * u * e) = roundDiv a (b * e) := by
      intro a b e
      have h1 : b * u * e = b * e * u := by rw [Nat.mul_assoc, Nat.mul_comm u e, ← Nat.mul_assoc]
      unfold roundDiv
      rw [h1, Nat.mul_div_mul_right _ _ hu0, Nat.mul_mod_mul_right]
      simp only
      generalize a / (b * e) = q
      generalize a % (b * e) = r
      generalize b * e = c
      have h2 : 2 * (r * u) < c * u ↔ 2 * r < c := by
        rw [← Nat.mul_assoc]
        exact Nat.mul_lt_mul_right hu0
      have h3 : 2 * (r * u) > c * u ↔ 2 * r > c := by
        rw [← Nat.mul_assoc]
        exact Nat.mul_lt_mul_right hu0
      simp only [h2, h3]
    unfold roundTo
    simp only
    rw [Nat.mul_div_mul_right _ _ hu0, key]
  unfold asSecsF64
  rw [hdiv]
  rfl

theorem millisMag_eq (d : Duration) : d.millisMag = roundTo 53 (d.asSecsF64 * 1000) 1 := by
  unfold millisMag Fl.mulMag
  rw [natMag_exact (by omega)]
  show roundTo 53 (d.asSecsF64 * (1000 * 2 ^ 1074)) (2 ^ 1074) = _
  generalize hu : 2 ^ 1074 = u
  have hu0 : 0 < u := by rw [← hu]; exact Nat.two_pow_pos _
  rw [← Nat.mul_assoc]
  generalize d.asSecsF64 * 1000 = a
  have key : ∀ e, roundDiv (a * u) (u * e) = roundDiv a (1 * e) := by
    intro e
    rw [Nat.one_mul, Nat.mul_comm u e]
    unfold roundDiv
    rw [Nat.mul_div_mul_right _ _ hu0, Nat.mul_mod_mul_right]
    simp only
    generalize a / e = q
    generalize a % e = r
    have h2 : 2 * (r * u) < e * u ↔ 2 * r < e := by
      rw [← Nat.mul_assoc]
      exact Nat.mul_lt_mul_right hu0
    have h3 : 2 * (r * u) > e * u ↔ 2 * r > e := by
      rw [← Nat.mul_assoc]
      exact Nat.mul_lt_mul_right hu0
    simp only [h2, h3]
  unfold roundTo
  simp only
  rw [Nat.mul_div_cancel _ hu0, Nat.div_one, key]

theorem roundDiv_eq {a b k : Nat} (h : 2 * gap a (b * k) < b) : roundDiv a b = k := by
  have hb : 0 < b := by omega
  have h1 := roundDiv_nearest (a := a) hb k
  have h2 : 2 * gap a (b * roundDiv a b) < b := by omega
  generalize roundDiv a b = r at *
  rcases Nat.lt_trichotomy r k with h' | h' | h'
  · have : b * (r + 1) ≤ b * k := Nat.mul_le_mul_left b h'
    rw [Nat.mul_add, Nat.mul_one] at this
    unfold gap at *
    omega
  · exact h'
  · have : b * (k + 1) ≤ b * r := Nat.mul_le_mul_left b h'
    rw [Nat.mul_add, Nat.mul_one] at this
    unfold gap at *
    omega

theorem fromSecsF64_fin (m : Nat) : fromSecsF64 (.fin false m) =
    if 2 ^ 64 * 2 ^ 1074 ≤ m then .panic
    else .ok ⟨roundDiv (m * 1000000000) (2 ^ 1074) / 1000000000, roundDiv (m * 1000000000) (2 ^ 1074) % 1000000000⟩ := by
  have hf : f64Format.unit = 1074 := rfl
  unfold fromSecsF64
  simp only [hf]
  rw [if_neg (by simp)]

theorem error_sum {n s w N T M : Nat} (hw : 0 < w)
    (e1 : 2 * gap (n * 2 ^ 54) (1000000000 * N) ≤ 1000000000 * (2 ^ 1 * w))
    (e2 : 2 * gap (s * 2 ^ 54 + N) (1 * T) ≤ 1 * (2 ^ 13 * w))
    (e3 : 2 * gap (T * 1000) (1 * M) ≤ 1 * (2 ^ 23 * w)) :
    2 * gap (M * 1000000000) (2 ^ 54 * (1000 * (s * 1000000000 + n))) < 2 ^ 54 * w := by
  unfold gap at *
  omega

/-- Below 4096 seconds nothing is lost. -/
theorem back_small (d : Duration) (hs : d.secs < 4096) (hn : d.nanos < 1000000000) : d.back = .ok d := by
  have e1 := roundTo_error (p := 53) (a := d.nanos * 2 ^ 1074) (b := 1000000000) (k := 1074) (by omega) (by omega)
    (by omega) (Nat.mul_lt_mul_of_pos_right hn (Nat.two_pow_pos _))
  have hN : roundTo 53 (d.nanos * 2 ^ 1074) 1000000000 ≤ 2 ^ 1074 :=
    roundTo_le (by omega) (by omega) (representable_pow 53 (by omega) 1074)
      (Nat.mul_le_mul_right _ (by omega))
  have hS : Fl.natMag f64Format d.secs = d.secs * 2 ^ 1074 := natMag_exact (by omega)
  have hT := asSecsF64_eq d hn
  rw [hS] at hT
  have hM := millisMag_eq d
  generalize roundTo 53 (d.nanos * 2 ^ 1074) 1000000000 = N at *
  have hu : (2 : Nat) ^ 1074 = 2 ^ 54 * 2 ^ 1020 := by rw [← Nat.pow_add]
  have e2 : 2 * gap (d.secs * 2 ^ 1074 + N) (1 * roundTo 53 (d.secs * 2 ^ 1074 + N) 1) ≤ 1 * 2 ^ (1086 - 53) := by
    by_cases heq : d.secs * 2 ^ 1074 + N = 2 ^ 1086
    · have := roundTo_of_representable (p := 53) (n := 2 ^ 1086) (by omega) (representable_pow 53 (by omega) 1086)
        (b := 1) (by omega)
      rw [heq]
      rw [Nat.one_mul] at this
      rw [this]
      unfold gap
      omega
    · apply roundTo_error (by omega) (by omega) (by omega)
      have h4 : (2 : Nat) ^ 1086 = 4096 * 2 ^ 1074 := by
        rw [show (4096 : Nat) = 2 ^ 12 from rfl, ← Nat.pow_add]
      have h5 : d.secs * 2 ^ 1074 ≤ 4095 * 2 ^ 1074 := Nat.mul_le_mul_right _ (by omega)
      rw [h4] at heq
      rw [h4]
      generalize (2 : Nat) ^ 1074 = u at *
      omega
  have hTle : d.asSecsF64 ≤ 2 ^ 1086 := by
    rw [hT]
    apply roundTo_le (by omega) (by omega) (representable_pow 53 (by omega) 1086)
    have h4 : (2 : Nat) ^ 1086 = 4096 * 2 ^ 1074 := by
      rw [show (4096 : Nat) = 2 ^ 12 from rfl, ← Nat.pow_add]
    have h5 : d.secs * 2 ^ 1074 ≤ 4095 * 2 ^ 1074 := Nat.mul_le_mul_right _ (by omega)
    rw [h4]
    generalize (2 : Nat) ^ 1074 = u at *
    omega
  rw [← hT] at e2
  have e3 := roundTo_error (p := 53) (a := d.asSecsF64 * 1000) (b := 1) (k := 1096) (by omega) (by omega)
    (by omega) (by
      rw [show (2 : Nat) ^ 1096 = 1024 * 2 ^ 1086 by rw [show (1024 : Nat) = 2 ^ 10 from rfl, ← Nat.pow_add]]
      have h0 := Nat.two_pow_pos 1086
      generalize (2 : Nat) ^ 1086 = u at *
      omega)
  rw [← hM] at e3
  have hw := Nat.two_pow_pos 1020
  rw [show (1074 - 53) = 1 + 1020 from rfl, Nat.pow_add, hu] at e1
  rw [show (1086 - 53) = 13 + 1020 from rfl, Nat.pow_add, hu] at e2
  rw [show (1096 - 53) = 23 + 1020 from rfl, Nat.pow_add] at e3
  have hround : roundDiv (d.millisMag * 1000000000) (2 ^ 1074) = 1000 * (d.secs * 1000000000 + d.nanos) := by
    apply roundDiv_eq
    rw [hu]
    have x1 : d.nanos * (2 ^ 54 * 2 ^ 1020) = d.nanos * 2 ^ 1020 * 2 ^ 54 := by
      rw [Nat.mul_comm (2 ^ 54), Nat.mul_assoc]
    have x2 : d.secs * (2 ^ 54 * 2 ^ 1020) = d.secs * 2 ^ 1020 * 2 ^ 54 := by
      rw [Nat.mul_comm (2 ^ 54), Nat.mul_assoc]
    have x3 : 2 ^ 54 * 2 ^ 1020 * (1000 * (d.secs * 1000000000 + d.nanos)) =
        2 ^ 54 * (1000 * (d.secs * 2 ^ 1020 * 1000000000 + d.nanos * 2 ^ 1020)) := by
      rw [Nat.mul_assoc, Nat.mul_left_comm (2 ^ 1020) 1000, Nat.mul_add (2 ^ 1020), ← Nat.mul_assoc (2 ^ 1020),
        Nat.mul_comm (2 ^ 1020) d.secs, Nat.mul_comm (2 ^ 1020) d.nanos]
    rw [x1] at e1
    rw [x2] at e2
    rw [x3]
    exact error_sum hw e1 e2 e3
  have hlt : d.millisMag < 2 ^ 64 * 2 ^ 1074 := by
    have h2 : 1 * d.millisMag ≤ 1 * 2 ^ 1096 := by
      rw [hM, Nat.one_mul, Nat.one_mul]
      apply roundTo_le (by omega) (by omega) (representable_pow 53 (by omega) 1096)
      rw [show (2 : Nat) ^ 1096 = 1024 * 2 ^ 1086 by rw [show (1024 : Nat) = 2 ^ 10 from rfl, ← Nat.pow_add]]
      generalize (2 : Nat) ^ 1086 = u at *
      omega
    have h3 : (2 : Nat) ^ 1096 < 2 ^ 64 * 2 ^ 1074 := by
      rw [← Nat.pow_add]; exact Nat.pow_lt_pow_right (by omega) (by omega)
    generalize (2 : Nat) ^ 1096 = u at *
    generalize (2 : Nat) ^ 64 * 2 ^ 1074 = v at *
    omega
  unfold back
  rw [fromSecsF64_fin, if_neg (Nat.not_le.mpr hlt)]
  rw [hround]
  obtain ⟨s, n⟩ := d
  simp only at hn
  simp only [Res.map_ok, divU32, Res.ok.injEq, Duration.mk.injEq]
  omega

theorem millisMag_lt (d : Duration) (hs : d.secs < 2 ^ 64) (hn : d.nanos < 1000000000) :
    Representable 53 d.millisMag ∧ d.millisMag < 2 ^ 2098 := by
  have hN : roundTo 53 (d.nanos * 2 ^ 1074) 1000000000 ≤ 2 ^ 1074 :=
    roundTo_le (by omega) (by omega) (representable_pow 53 (by omega) 1074)
      (Nat.mul_le_mul_right _ (by omega))
  have hS : Fl.natMag f64Format d.secs ≤ 2 ^ 1138 := by
    apply roundTo_le (p := 53) (by omega) (by omega) (representable_pow 53 (by omega) 1138)
    rw [show (2 : Nat) ^ 1138 = 2 ^ 64 * 2 ^ 1074 by rw [← Nat.pow_add], Nat.one_mul,
      show f64Format.unit = 1074 from rfl]
    exact Nat.mul_le_mul_right _ (Nat.le_of_lt hs)
  have hT : d.asSecsF64 ≤ 2 ^ 1139 := by
    rw [asSecsF64_eq d hn]
    apply roundTo_le (by omega) (by omega) (representable_pow 53 (by omega) 1139)
    have h1 : (2 : Nat) ^ 1139 = 2 * 2 ^ 1138 := Nat.pow_succ'
    have h2 : (2 : Nat) ^ 1074 ≤ 2 ^ 1138 := Nat.pow_le_pow_right (by omega) (by omega)
    rw [h1, Nat.one_mul, Nat.two_mul]
    exact Nat.add_le_add hS (Nat.le_trans hN h2)
  have hM : d.millisMag ≤ 2 ^ 1149 := by
    rw [millisMag_eq]
    apply roundTo_le (by omega) (by omega) (representable_pow 53 (by omega) 1149)
    have h1 : (2 : Nat) ^ 1149 = 1024 * 2 ^ 1139 := by
      rw [show (1024 : Nat) = 2 ^ 10 from rfl, ← Nat.pow_add]
    rw [h1]
    generalize (2 : Nat) ^ 1139 = u at *
    omega
  refine ⟨by rw [millisMag_eq]; exact roundTo_representable (by omega), ?_⟩
  exact Nat.lt_of_le_of_lt hM (Nat.pow_lt_pow_right (by omega) (by omega))

/-- From 2^64 milliseconds on, reading panics. -/
theorem back_huge (d : Duration) (hs : 18446744073709552 ≤ d.secs) (hn : d.nanos < 1000000000) : d.back = .panic := by
  have hrep : Representable 53 (18446744073709552 * 2 ^ 1074) :=
    ⟨18446744073709552 / 4, 1076, by omega, by
      rw [show (18446744073709552 : Nat) = 18446744073709552 / 4 * 2 ^ 2 from rfl, Nat.mul_assoc, ← Nat.pow_add]⟩
  have hS : 18446744073709552 * 2 ^ 1074 ≤ Fl.natMag f64Format d.secs := by
    apply le_roundTo (p := 53) (by omega) (by omega) hrep
    rw [Nat.one_mul]
    exact Nat.mul_le_mul_right _ hs
  have hT : 18446744073709552 * 2 ^ 1074 ≤ d.asSecsF64 := by
    rw [asSecsF64_eq d hn]
    apply le_roundTo (by omega) (by omega) hrep
    rw [Nat.one_mul]
    exact Nat.le_trans hS (Nat.le_add_right _ _)
  have hM : 2 ^ 1138 ≤ d.millisMag := by
    rw [millisMag_eq]
    apply le_roundTo (by omega) (by omega) (representable_pow 53 (by omega) 1138)
    have h1 : (2 : Nat) ^ 1138 = 2 ^ 64 * 2 ^ 1074 := by rw [← Nat.pow_add]
    rw [h1]
    generalize (2 : Nat) ^ 1074 = u at *
    omega
  unfold back
  rw [fromSecsF64_fin, if_pos]
  · rfl
  · rw [← Nat.pow_add]; exact hM

end Duration
end HT
