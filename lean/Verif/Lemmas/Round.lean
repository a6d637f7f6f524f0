import Verif.Core.Round
import Verif.Spec.Round

/-! Facts about rounding. -/

namespace HT
open Spec

/-- `roundDiv` picks an integer nearest to the quotient. -/
theorem roundDiv_nearest {a b : Nat} (_hb : 0 < b) (k : Nat) :
    gap a (b * roundDiv a b) ≤ gap a (b * k) := by
  have h1 := Nat.div_add_mod a b
  have h2 := Nat.mod_lt a _hb
  unfold roundDiv gap
  generalize a / b = q at *
  generalize a % b = r at *
  rcases Nat.lt_or_ge q k with h | h
  · have h3 : b * (q + 1) ≤ b * k := Nat.mul_le_mul_left b h
    rw [Nat.mul_add] at h3
    simp only
    (repeat' split) <;> (try simp only [Nat.mul_add, Nat.mul_one] at *) <;> omega
  · have h3 : b * k ≤ b * q := Nat.mul_le_mul_left b h
    simp only
    (repeat' split) <;> (try simp only [Nat.mul_add, Nat.mul_one] at *) <;> omega

theorem roundDiv_bounds (a b : Nat) : a / b ≤ roundDiv a b ∧ roundDiv a b ≤ a / b + 1 := by
  unfold roundDiv
  simp only
  (repeat' split) <;> omega

theorem roundDiv_exact {b : Nat} (hb : 0 < b) (k : Nat) : roundDiv (b * k) b = k := by
  unfold roundDiv
  simp only [Nat.mul_mod_right, Nat.mul_div_cancel_left k hb]
  rw [if_pos (by omega)]

/-- The error of `roundDiv` is at most half. -/
theorem roundDiv_error {a b : Nat} (hb : 0 < b) : 2 * gap a (b * roundDiv a b) ≤ b := by
  have h1 := Nat.div_add_mod a b
  have h2 := Nat.mod_lt a hb
  unfold roundDiv gap
  generalize a / b = q at *
  generalize a % b = r at *
  simp only
  (repeat' split) <;> (try simp only [Nat.mul_add, Nat.mul_one] at *) <;> omega

theorem log2_lt {q p : Nat} (h : q.log2 + 1 ≤ p) : q < 2 ^ p := by
  by_cases h0 : q = 0
  · subst h0; exact Nat.two_pow_pos p
  · exact Nat.lt_of_lt_of_le Nat.lt_log2_self (Nat.pow_le_pow_right (by omega) h)

theorem representable_pow (p : Nat) (hp : 0 < p) (k : Nat) : Representable p (2 ^ k) :=
  ⟨1, k, Nat.one_lt_two_pow (by omega), by simp⟩

theorem representable_le {p m e : Nat} (hp : 0 < p) (h : m ≤ 2 ^ p) : Representable p (m * 2 ^ e) := by
  rcases Nat.lt_or_ge m (2 ^ p) with h' | h'
  · exact ⟨m, e, h', rfl⟩
  · have : m = 2 ^ p := by omega
    subst this
    rw [← Nat.pow_add]
    exact representable_pow p hp _

/-- The rounded number is representable. -/
theorem roundTo_representable {p a b : Nat} (hp : 0 < p) :
    Representable p (roundTo p a b) := by
  unfold roundTo
  simp only
  apply representable_le hp
  have h := (roundDiv_bounds a (b * 2 ^ ((a / b).log2 + 1 - p))).2
  rw [← Nat.div_div_eq_div_mul] at h
  have : a / b / 2 ^ ((a / b).log2 + 1 - p) < 2 ^ p := by
    rw [Nat.div_lt_iff_lt_mul (Nat.two_pow_pos _), ← Nat.pow_add]
    apply log2_lt
    omega
  omega

/-- The rounded number is a nearest representable one. -/
theorem roundTo_nearest {p a b : Nat} (hp : 0 < p) (hb : 0 < b) {x : Nat} (hx : Representable p x) :
    gap a (b * roundTo p a b) ≤ gap a (b * x) := by
  have key : ∀ e k, e = (a / b).log2 + 1 - p → gap a (b * roundTo p a b) ≤ gap a (b * (k * 2 ^ e)) := by
    intro e k he
    have := roundDiv_nearest (a := a) (b := b * 2 ^ e) (Nat.mul_pos hb (Nat.two_pow_pos e)) k
    unfold roundTo
    simp only [← he]
    rw [show b * (roundDiv a (b * 2 ^ e) * 2 ^ e) = b * 2 ^ e * roundDiv a (b * 2 ^ e) by
      rw [Nat.mul_comm (roundDiv _ _), Nat.mul_assoc],
      show b * (k * 2 ^ e) = b * 2 ^ e * k by rw [Nat.mul_comm k, Nat.mul_assoc]]
    exact this
  obtain ⟨m, j, hm, rfl⟩ := hx
  obtain ⟨e, he⟩ : ∃ e, e = (a / b).log2 + 1 - p := ⟨_, rfl⟩
  rcases Nat.lt_or_ge j e with hlt | hge
  · -- x is below the binade: the lower end of the binade is closer
    have hq : a / b ≠ 0 := by
      intro h0
      rw [h0] at he
      simp at he
      omega
    have h1 : 2 ^ (a / b).log2 ≤ a / b := Nat.log2_self_le hq
    have h2 : m * 2 ^ j ≤ 2 ^ (p - 1) * 2 ^ e := by
      calc m * 2 ^ j ≤ 2 ^ p * 2 ^ (e - 1) :=
            Nat.mul_le_mul (Nat.le_of_lt hm) (Nat.pow_le_pow_right (by omega) (by omega))
        _ = 2 ^ (p - 1) * 2 ^ e := by
            rw [← Nat.pow_add, ← Nat.pow_add]; congr 1; omega
    have h3 : 2 ^ (p - 1) * 2 ^ e = 2 ^ (a / b).log2 := by
      rw [← Nat.pow_add]; congr 1; omega
    have h4 := key e (2 ^ (p - 1)) he
    have h5 : b * (2 ^ (p - 1) * 2 ^ e) ≤ a := by
      rw [h3]
      calc b * 2 ^ (a / b).log2 ≤ b * (a / b) := Nat.mul_le_mul_left b h1
        _ ≤ a := Nat.mul_div_le a b
    have h6 : b * (m * 2 ^ j) ≤ b * (2 ^ (p - 1) * 2 ^ e) := Nat.mul_le_mul_left b h2
    unfold gap at *
    omega
  · have h1 := key e (m * 2 ^ (j - e)) he
    rw [Nat.mul_assoc, ← Nat.pow_add, Nat.sub_add_cancel hge] at h1
    exact h1

/-- Representable numbers are their own rounding. -/
theorem roundTo_of_representable {p n : Nat} (hp : 0 < p) (h : Representable p n) {b : Nat} (hb : 0 < b) :
    roundTo p (b * n) b = n := by
  have := roundTo_nearest (a := b * n) hp hb h
  unfold gap at this
  have h2 : b * roundTo p (b * n) b = b * n := by omega
  exact Nat.eq_of_mul_eq_mul_left hb h2

theorem roundTo_eq_self_iff {p n : Nat} (hp : 0 < p) : roundTo p n 1 = n ↔ Representable p n := by
  constructor
  · intro h
    have := roundTo_representable (a := n) (b := 1) hp
    rwa [h] at this
  · intro h
    have := roundTo_of_representable hp h (show 0 < 1 by omega)
    rwa [Nat.one_mul] at this

theorem representable_of_lt {p n : Nat} (h : n ≤ 2 ^ p) (hp : 0 < p) : Representable p n := by
  have := representable_le (e := 0) hp h
  rwa [Nat.pow_zero, Nat.mul_one] at this

/-- Rounding does not pass a representable number. -/
theorem roundTo_le {p a b x : Nat} (hp : 0 < p) (hb : 0 < b) (hx : Representable p x) (h : a ≤ b * x) :
    roundTo p a b ≤ x := by
  have h1 := roundTo_nearest (a := a) hp hb hx
  rcases Nat.lt_or_ge x (roundTo p a b) with hlt | hge
  · have h2 : b * (x + 1) ≤ b * roundTo p a b := Nat.mul_le_mul_left b hlt
    rw [Nat.mul_add] at h2
    unfold gap at h1
    omega
  · exact hge

theorem le_roundTo {p a b x : Nat} (hp : 0 < p) (hb : 0 < b) (hx : Representable p x) (h : b * x ≤ a) :
    x ≤ roundTo p a b := by
  have h1 := roundTo_nearest (a := a) hp hb hx
  rcases Nat.lt_or_ge (roundTo p a b) x with hlt | hge
  · have h2 : b * (roundTo p a b + 1) ≤ b * x := Nat.mul_le_mul_left b hlt
    rw [Nat.mul_add] at h2
    unfold gap at h1
    omega
  · exact hge

/-- Where converting a 64-bit integer to a double reaches 2^64. -/
theorem natToF64_ge_iff {n : Nat} (h : n < 2 ^ 64) : 2 ^ 64 ≤ natToF64 n ↔ 2 ^ 64 - 2 ^ 10 ≤ n := by
  rcases Nat.lt_or_ge n (2 ^ 63) with hlt | hge
  · have h1 : natToF64 n ≤ 2 ^ 63 :=
      roundTo_le (by omega) (by omega) (representable_pow 53 (by omega) 63) (by omega)
    omega
  · have hl : n.log2 = 63 := by
      rw [Nat.log2_eq_iff (by omega)]
      omega
    unfold natToF64 roundTo
    simp only [Nat.div_one, hl, Nat.one_mul]
    unfold roundDiv
    simp only [show 63 + 1 - 53 = 11 from rfl]
    (repeat' split) <;> omega

end HT
