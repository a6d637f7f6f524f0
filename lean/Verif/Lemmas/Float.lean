import Verif.Core.Float
import Verif.Lemmas.Num
import Verif.Lemmas.Round
import Mathlib.Data.List.TakeWhile

/-! Helper lemmas about decimal texts of floating-point numbers. -/

namespace HT
open Spec

theorem digitsVal_acc (acc : Nat) (t : Str) :
    digitsVal 10 acc t = (digitsVal 10 0 t).map fun v => acc * 10 ^ t.length + v := by
  induction t generalizing acc with
  | nil => simp [digitsVal]
  | cons c cs ih =>
    simp only [digitsVal]
    cases toDigit 10 c with
    | none => rfl
    | some d =>
      simp only
      rw [ih (acc * 10 + d), ih (0 * 10 + d), Option.map_map]
      congr 1
      funext v
      simp only [Function.comp, List.length_cons, Nat.pow_succ]
      rw [Nat.zero_mul, Nat.zero_add, Nat.add_mul, Nat.mul_assoc, Nat.mul_comm 10 (10 ^ cs.length)]
      omega

theorem dec_length_le {n b : Nat} (hb : 0 < b) (h : n < 10 ^ b) : (dec n).length ≤ b := by
  unfold dec
  induction b generalizing n with
  | zero => omega
  | succ b ih =>
    unfold natStr
    split
    · simp
    · rename_i hn
      rw [List.length_append]
      have hb' : 0 < b := by
        rcases Nat.eq_zero_or_pos b with rfl | h'
        · simp at h; omega
        · exact h'
      have := ih hb' (n := n / 10) (by rw [Nat.pow_succ] at h; omega)
      simp
      omega

theorem zpad_length {w : Nat} {s : Str} (h : s.length ≤ w) : (zpad w s).length = w := by
  unfold zpad
  simp
  omega

theorem zpad_digits {w : Nat} {s : Str} (h : ∀ c ∈ s, isDigit c = true) : ∀ c ∈ zpad w s, isDigit c = true := by
  intro c hc
  unfold zpad at hc
  rcases List.mem_append.mp hc with hc | hc
  · rw [List.eq_of_mem_replicate hc]; decide
  · exact h c hc

theorem digitsVal_zpad (w n : Nat) : digitsVal 10 0 (zpad w (dec n)) = some n := by
  unfold zpad
  rw [digitsVal_zeros (by omega)]
  exact digitsVal_natStr (by omega) (by omega) n

namespace Fl

theorem parseDecimal_int (n : Nat) : parseDecimal (dec n) = some (n, 1) := by
  unfold parseDecimal
  rw [List.takeWhile_eq_self_iff.mpr (dec_digits n), List.dropWhile_eq_nil_iff.mpr (dec_digits n)]
  simp only [fracPart, List.append_nil, List.length_nil, Nat.pow_zero]
  rw [if_neg (by simp [dec_ne_nil]), show digitsVal 10 0 (dec n) = some n from digitsVal_natStr (by omega) (by omega) n]
  simp [parseExp]

theorem parseDecimal_frac (n : Nat) {f : Str} {k : Nat} (hf : ∀ c ∈ f, isDigit c = true)
    (hv : digitsVal 10 0 f = some k) :
    parseDecimal (dec n ++ s!!"." ++ f) = some (n * 10 ^ f.length + k, 10 ^ f.length) := by
  have hdot : isDigit '.' = false := by decide
  have h1 : List.takeWhile isDigit (dec n ++ s!!"." ++ f) = dec n := by
    rw [List.append_assoc, List.takeWhile_append_of_pos (dec_digits n)]
    simp [hdot]
  have h2 : List.dropWhile isDigit (dec n ++ s!!"." ++ f) = '.' :: f := by
    rw [List.append_assoc, List.dropWhile_append_of_pos (dec_digits n)]
    simp [hdot]
  unfold parseDecimal
  rw [h1, h2]
  simp only [fracPart]
  rw [List.takeWhile_eq_self_iff.mpr hf, List.dropWhile_eq_nil_iff.mpr hf, if_neg (by simp [dec_ne_nil]),
    digitsVal_append, show digitsVal 10 0 (dec n) = some n from digitsVal_natStr (by omega) (by omega) n]
  simp only [Option.bind_some]
  rw [digitsVal_acc, hv]
  simp [parseExp]

theorem decimalText_digits (c a b : Nat) : ∀ x ∈ decimalText c a b, isDigit x = true ∨ x = '.' := by
  intro x hx
  unfold decimalText at hx
  split at hx
  · exact .inl (dec_digits _ x hx)
  · rcases List.mem_append.mp hx with hx | hx
    · rcases List.mem_append.mp hx with hx | hx
      · exact .inl (dec_digits _ x hx)
      · exact .inr (by simpa using hx)
    · exact .inl (zpad_digits (dec_digits _) x hx)

theorem decimalText_head (c a b : Nat) : ∃ d t, decimalText c a b = d :: t ∧ isDigit d = true := by
  have key : ∀ n, ∃ d t, dec n = d :: t ∧ isDigit d = true := by
    intro n
    cases h : dec n with
    | nil => exact absurd h (dec_ne_nil n)
    | cons d t => exact ⟨d, t, rfl, dec_digits n d (by rw [h]; simp)⟩
  unfold decimalText
  split
  · exact key _
  · obtain ⟨d, t, h, hd⟩ := key (c / 10 ^ b)
    rw [h]
    exact ⟨d, _, rfl, hd⟩

theorem parse_of_digit {F : FlFormat} {d : Char} {t : Str} (hd : isDigit d = true) :
    parse F (d :: t) = (parseDecimal (d :: t)).map fun (a, b) => round F false a b := by
  have hn : 48 ≤ d.toNat ∧ d.toNat ≤ 57 := by simpa [isDigit] using hd
  have hs : sign (d :: t) = (false, d :: t) := by
    unfold sign
    split
    · rename_i h; injection h with h; subst h; exact absurd hd (by decide)
    · rename_i h; injection h with h; subst h; exact absurd hd (by decide)
    · rfl
  have hne : ∀ (x : Char) (u : Str), 97 ≤ x.toNat → lowerC x = x → eqIgnoreCase (d :: t) (x :: u) = false := by
    intro x u hx hl
    unfold eqIgnoreCase lower
    simp only [List.map_cons, beq_eq_false_iff_ne, ne_eq, List.cons.injEq, not_and]
    intro h
    have := lowerC_toNat d
    rw [if_neg (by omega)] at this
    rw [h, hl] at this
    omega
  unfold parse
  rw [hs]
  simp only
  rw [if_neg, if_neg]
  · rw [hne 'n' s!!"an" (by decide) (by decide)]; simp
  · rw [hne 'i' s!!"nf" (by decide) (by decide), hne 'i' s!!"nfinity" (by decide) (by decide)]; simp

theorem parse_decimalText (F : FlFormat) {c a b : Nat} (hab : a = 0 ∨ b = 0) :
    parse F (decimalText c a b) = some (round F false (c * 10 ^ a) (10 ^ b)) := by
  obtain ⟨d, t, h, hd⟩ := decimalText_head c a b
  have hp : parseDecimal (decimalText c a b) = some (c * 10 ^ a, 10 ^ b) := by
    unfold decimalText
    split
    · rename_i hb
      subst hb
      exact parseDecimal_int _
    · rename_i hb
      have ha : a = 0 := by omega
      subst ha
      have hlt : c % 10 ^ b < 10 ^ b := Nat.mod_lt _ (Nat.pow_pos (by omega))
      have hlen := zpad_length (dec_length_le (by omega) hlt)
      rw [parseDecimal_frac _ (zpad_digits (dec_digits _)) (digitsVal_zpad _ _), hlen, Nat.mul_comm (c / 10 ^ b),
        Nat.div_add_mod]
      simp
  rw [h, parse_of_digit hd, ← h, hp]
  rfl

theorem nearMultiple_ok {F : FlFormat} {m a b c : Nat} (h : nearMultiple F m a b = some c) :
    round F false (c * 10 ^ a) (10 ^ b) = .fin false m := by
  unfold nearMultiple at h
  simp only at h
  split at h
  · rename_i h1
    split at h
    · rename_i h2
      cases h
      simp only [Bool.and_eq_true, beq_iff_eq] at h2
      exact h2.1
    · cases h
      exact beq_iff_eq.mp h1
  · split at h
    · rename_i h2
      cases h
      exact beq_iff_eq.mp h2
    · cases h

/-- With as many decimals as the unit has bits the number is written exactly. -/
theorem nearMultiple_exact {F : FlFormat} {m : Nat} (hp : 0 < F.prec) (hr : Representable F.prec m) (hl : m < F.limit) :
    (nearMultiple F m 0 F.unit).isSome = true := by
  have hq : m * 10 ^ F.unit / (2 ^ F.unit * 10 ^ 0) = m * 5 ^ F.unit := by
    rw [show (10 : Nat) = 2 * 5 from rfl, Nat.mul_pow, Nat.pow_zero, Nat.mul_one, Nat.mul_left_comm,
      Nat.mul_div_cancel_left _ (Nat.two_pow_pos _)]
  have hround : round F false (m * 5 ^ F.unit * 10 ^ 0) (10 ^ F.unit) = .fin false m := by
    unfold round
    simp only
    rw [show m * 5 ^ F.unit * 10 ^ 0 * 2 ^ F.unit = 10 ^ F.unit * m by
        rw [show (10 : Nat) ^ F.unit = 2 ^ F.unit * 5 ^ F.unit by rw [← Nat.mul_pow]]
        rw [Nat.pow_zero, Nat.mul_one, Nat.mul_assoc, Nat.mul_comm m, Nat.mul_comm (2 ^ F.unit) (5 ^ F.unit)],
      roundTo_of_representable hp hr (Nat.pow_pos (by omega)), if_pos hl]
  unfold nearMultiple
  simp only
  rw [hq, hround]
  simp only [beq_self_eq_true, if_true]
  split <;> rfl

theorem displayFrac_ok {F : FlFormat} {m : Nat} (hp : 0 < F.prec) (hr : Representable F.prec m) (hl : m < F.limit) :
    ∀ fuel b, b ≤ F.unit → F.unit < b + fuel →
      ∃ c b', displayFrac F m fuel b = decimalText c 0 b' ∧ round F false (c * 10 ^ 0) (10 ^ b') = .fin false m := by
  intro fuel
  induction fuel with
  | zero => intro b h1 h2; omega
  | succ fuel ih =>
    intro b h1 h2
    unfold displayFrac
    cases hn : nearMultiple F m 0 b with
    | some c => exact ⟨c, b, rfl, nearMultiple_ok hn⟩
    | none =>
      simp only
      have hb : b ≠ F.unit := by
        rintro rfl
        have := nearMultiple_exact hp hr hl
        rw [hn] at this
        cases this
      exact ih (b + 1) (by omega) (by omega)

theorem displayInt_ok {F : FlFormat} {m : Nat} (hp : 0 < F.prec) (hr : Representable F.prec m) (hl : m < F.limit) (k : Nat) :
    ∃ c a b, (a = 0 ∨ b = 0) ∧ displayInt F m k = decimalText c a b ∧
      round F false (c * 10 ^ a) (10 ^ b) = .fin false m := by
  induction k with
  | zero =>
    obtain ⟨c, b, h1, h2⟩ := displayFrac_ok hp hr hl (F.unit + 1) 0 (by omega) (by omega)
    exact ⟨c, 0, b, .inl rfl, h1, h2⟩
  | succ k ih =>
    unfold displayInt
    cases hn : nearMultiple F m (k + 1) 0 with
    | some c => exact ⟨c, k + 1, 0, .inr rfl, rfl, nearMultiple_ok hn⟩
    | none => exact ih

/-- A written number is read back as itself, and is made of digits and at most a point. -/
theorem parse_display {F : FlFormat} {m : Nat} (hp : 0 < F.prec) (hr : Representable F.prec m) (hl : m < F.limit) :
    parse F (display F (.fin false m)) = some (.fin false m) ∧
      ∀ x ∈ display F (.fin false m), isDigit x = true ∨ x = '.' := by
  obtain ⟨c, a, b, hab, h1, h2⟩ := displayInt_ok hp hr hl (dec (m / 2 ^ F.unit)).length
  have : display F (.fin false m) = decimalText c a b := by
    unfold display
    simp only [Bool.false_eq_true, if_false, List.nil_append]
    exact h1
  rw [this]
  exact ⟨by rw [parse_decimalText F hab, h2], decimalText_digits c a b⟩

end Fl
end HT
