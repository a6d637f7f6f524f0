import Verif.Spec.Float
import Verif.Lemmas.Round
import Verif.Lemmas.Float
import Verif.Lemmas.Headers

/-! The model's rounding and number parser meet the specification of number texts. -/

namespace HT
open Spec

theorem roundDiv_tie {a b : Nat} (hb : 0 < b) {k : Nat} (hk : k ≠ roundDiv a b)
    (h : gap a (b * roundDiv a b) = gap a (b * k)) :
    gap (roundDiv a b) k = 1 ∧ roundDiv a b % 2 = 0 := by
  have h1 := Nat.div_add_mod a b
  have h2 := Nat.mod_lt a hb
  have hc : (roundDiv a b = a / b ∧ (2 * (a % b) < b ∨ 2 * (a % b) = b ∧ a / b % 2 = 0)) ∨
      (roundDiv a b = a / b + 1 ∧ (b < 2 * (a % b) ∨ 2 * (a % b) = b ∧ (a / b + 1) % 2 = 0)) := by
    unfold roundDiv
    simp only
    (repeat' split) <;> omega
  generalize roundDiv a b = R at *
  generalize a / b = q at *
  generalize a % b = r at *
  have hk' : (∃ d, k = q + d + 2) ∨ k = q + 1 ∨ k = q ∨ ∃ d, q = k + d + 1 := by
    rcases Nat.lt_trichotomy k q with h | h | h
    · exact .inr (.inr (.inr ⟨q - k - 1, by omega⟩))
    · exact .inr (.inr (.inl h))
    · rcases Nat.lt_or_ge (q + 1) k with h' | h'
      · exact .inl ⟨k - q - 2, by omega⟩
      · exact .inr (.inl (by omega))
  have e1 : ∀ x d, b * (x + d + 2) = b * x + b * d + 2 * b := fun x d => by
    rw [Nat.mul_add, Nat.mul_add, Nat.mul_comm b 2]
  have e2 : ∀ x d, b * (x + d + 1) = b * x + b * d + b := fun x d => by
    rw [Nat.mul_add, Nat.mul_add, Nat.mul_one]
  have e3 : ∀ x, b * (x + 1) = b * x + b := fun x => by rw [Nat.mul_add, Nat.mul_one]
  unfold gap at *
  rcases hc with ⟨rfl, hc⟩ | ⟨rfl, hc⟩
  · rcases hk' with ⟨d, rfl⟩ | rfl | rfl | ⟨d, rfl⟩
    · rw [e1] at h; omega
    · rw [e3] at h; omega
    · exact absurd rfl hk
    · rw [e2] at *; omega
  · rcases hk' with ⟨d, rfl⟩ | rfl | rfl | ⟨d, rfl⟩
    · rw [e1, e3] at h; omega
    · exact absurd rfl hk
    · rw [e3] at h; omega
    · rw [e3] at h; rw [e2] at *; omega

theorem roundTo_tie {p a b : Nat} (hp : 0 < p) (hb : 0 < b) {y : Nat} (hy : Representable p y)
    (hne : y ≠ roundTo p a b) (h : gap a (b * roundTo p a b) = gap a (b * y)) :
    ∃ k, roundTo p a b = 2 * k * gap (roundTo p a b) y := by
  obtain ⟨e, he⟩ : ∃ e, e = (a / b).log2 + 1 - p := ⟨_, rfl⟩
  have hR : roundTo p a b = roundDiv a (b * 2 ^ e) * 2 ^ e := by unfold roundTo; simp only [← he]
  obtain ⟨m, j, hm, rfl⟩ := hy
  rcases Nat.lt_or_ge j e with hlt | hge
  · -- the lower end of the binade is strictly nearer than `y`
    exfalso
    have hq : a / b ≠ 0 := by
      intro h0
      rw [h0] at he
      simp at he
      omega
    have h3 : 2 ^ (p - 1) * 2 ^ e = 2 ^ (a / b).log2 := by
      rw [← Nat.pow_add]; congr 1; omega
    have h2 : m * 2 ^ j < 2 ^ (p - 1) * 2 ^ e := by
      calc m * 2 ^ j < 2 ^ p * 2 ^ j := Nat.mul_lt_mul_of_pos_right hm (Nat.two_pow_pos j)
        _ ≤ 2 ^ p * 2 ^ (e - 1) := Nat.mul_le_mul_left _ (Nat.pow_le_pow_right (by omega) (by omega))
        _ = 2 ^ (p - 1) * 2 ^ e := by rw [← Nat.pow_add, ← Nat.pow_add]; congr 1; omega
    have h5 : b * (2 ^ (p - 1) * 2 ^ e) ≤ a := by
      rw [h3]
      calc b * 2 ^ (a / b).log2 ≤ b * (a / b) := Nat.mul_le_mul_left b (Nat.log2_self_le hq)
        _ ≤ a := Nat.mul_div_le a b
    have h6 : b * (m * 2 ^ j) < b * (2 ^ (p - 1) * 2 ^ e) := Nat.mul_lt_mul_of_pos_left h2 hb
    have h7 := roundTo_nearest (a := a) (b := b) hp hb
      (show Representable p (2 ^ (p - 1) * 2 ^ e) from ⟨2 ^ (p - 1), e, Nat.pow_lt_pow_right (by omega) (by omega), rfl⟩)
    unfold gap at *
    omega
  · have hy : m * 2 ^ j = m * 2 ^ (j - e) * 2 ^ e := by
      rw [Nat.mul_assoc, ← Nat.pow_add, Nat.sub_add_cancel hge]
    rw [hy] at h hne ⊢
    rw [hR] at h hne ⊢
    generalize m * 2 ^ (j - e) = k at *
    have hB : 0 < b * 2 ^ e := Nat.mul_pos hb (Nat.two_pow_pos e)
    have hc : ∀ x, b * (x * 2 ^ e) = b * 2 ^ e * x := fun x => by rw [Nat.mul_comm x, Nat.mul_assoc]
    rw [hc, hc] at h
    obtain ⟨h1, h2⟩ := roundDiv_tie hB (k := k) (fun e => hne (by rw [e])) h
    refine ⟨roundDiv a (b * 2 ^ e) / 2, ?_⟩
    have hg : gap (roundDiv a (b * 2 ^ e) * 2 ^ e) (k * 2 ^ e) = 2 ^ e := by
      have : ∀ x z : Nat, gap (x * 2 ^ e) (z * 2 ^ e) = gap x z * 2 ^ e := by
        intro x z
        unfold gap
        rw [Nat.add_mul, Nat.sub_mul, Nat.sub_mul]
      rw [this, h1, Nat.one_mul]
    rw [hg]
    congr 1
    omega

theorem nearestUnits_iff {p a b m : Nat} (hp : 0 < p) (hb : 0 < b) : NearestUnits p a b m ↔ m = roundTo p a b := by
  constructor
  · rintro ⟨h1, h2⟩
    by_contra hne
    have hr := roundTo_representable (a := a) (b := b) hp
    obtain ⟨h3, h4⟩ := h2 _ hr
    have h5 := roundTo_nearest (a := a) hp hb h1
    have heq : gap a (b * m) = gap a (b * roundTo p a b) := Nat.le_antisymm h3 h5
    obtain ⟨k, hk⟩ := h4 (Ne.symm hne) heq
    obtain ⟨l, hl⟩ := roundTo_tie hp hb h1 hne heq.symm
    generalize roundTo p a b = R at *
    have hgs : gap R m = gap m R := by unfold gap; omega
    rw [hgs] at hl
    have hd : gap m R = 2 * gap k l * gap m R := by
      have hg : gap m R = gap (2 * k * gap m R) (2 * l * gap m R) := by rw [← hk, ← hl]
      generalize gap m R = D at hg
      refine hg.trans ?_
      unfold gap
      rw [← Nat.sub_mul, ← Nat.sub_mul, ← Nat.add_mul, ← Nat.mul_sub, ← Nat.mul_sub, ← Nat.mul_add]
    have hpos : 0 < gap m R := by unfold gap; omega
    have : 1 = 2 * gap k l := by
      apply Nat.eq_of_mul_eq_mul_right hpos
      rw [Nat.one_mul]
      exact hd
    omega
  · rintro rfl
    exact ⟨roundTo_representable hp, fun y hy => ⟨roundTo_nearest hp hb hy, fun hne h => roundTo_tie hp hb hy hne h⟩⟩

theorem nearestFloat_iff {F : FlFormat} (hp : 0 < F.prec) {neg : Bool} {a b : Nat} (hb : 0 < b) {x : Fl} :
    NearestFloat F neg a b x ↔ x = Fl.round F neg a b := by
  unfold NearestFloat Fl.round
  simp only [nearestUnits_iff hp hb, exists_eq_left]
  by_cases h : roundTo F.prec (a * 2 ^ F.unit) b < F.limit
  · rw [if_pos h]
    constructor
    · rintro (⟨-, e⟩ | ⟨h', -⟩)
      · exact e
      · omega
    · exact fun e => .inl ⟨h, e⟩
  · rw [if_neg h]
    constructor
    · rintro (⟨h', -⟩ | ⟨-, e⟩)
      · omega
      · exact e
    · exact fun e => .inr ⟨by omega, e⟩

/-! ### The grammar -/

theorem digits_iff {s : Str} : Digits s ↔ s.all isDigit = true := by
  rw [List.all_eq_true]
  exact forall_congr' fun c => forall_congr' fun _ => isDigit_iff_le.symm

theorem digitsVal_some {s : Str} {n : Nat} : digitsVal 10 0 s = some n ↔ Digits s ∧ n = decValue s := by
  rw [digitsVal_ten, digits_iff]
  by_cases h : s.all isDigit = true
  · rw [if_pos h]; simp [h, decValue, eq_comm]
  · rw [if_neg h]; simp [h]

namespace Fl

theorem sign_minus (t : Str) : sign ('-' :: t) = (true, t) := rfl
theorem sign_plus (t : Str) : sign ('+' :: t) = (false, t) := rfl
theorem sign_other {c : Char} {t : Str} (h1 : c ≠ '-') (h2 : c ≠ '+') : sign (c :: t) = (false, c :: t) := by
  unfold sign
  split
  · rename_i e; cases e; exact absurd rfl h1
  · rename_i e; cases e; exact absurd rfl h2
  · rfl

theorem digit_ne {c : Char} (h : '0' ≤ c ∧ c ≤ '9') : c ≠ '-' ∧ c ≠ '+' ∧ c ≠ '.' ∧ c ≠ 'e' ∧ c ≠ 'E' := by
  refine ⟨?_, ?_, ?_, ?_, ?_⟩ <;> rintro rfl <;> revert h <;> decide

theorem parseExp_iff {s : Str} {up down : Nat} :
    (∃ neg n, parseExp s = some (neg, n) ∧ up = (if neg then 0 else n) ∧ down = (if neg then n else 0)) ↔
      Exponent s up down := by
  constructor
  · rintro ⟨neg, n, h, rfl, rfl⟩
    cases s with
    | nil => cases h; exact .none
    | cons c t =>
      unfold parseExp at h
      simp only at h
      by_cases hc : c = 'e' ∨ c = 'E'
      · rw [if_pos hc] at h
        have key : ∀ neg' ds, sign t = (neg', ds) → ds ≠ [] ∧ Digits ds ∧ n = decValue ds ∧ neg = neg' := by
          intro neg' ds hs
          rw [hs] at h
          simp only at h
          by_cases hd : ds = []
          · rw [if_pos hd] at h; cases h
          · rw [if_neg hd, Option.map_eq_some_iff] at h
            obtain ⟨v, hv, e⟩ := h
            cases e
            obtain ⟨h1, h2⟩ := digitsVal_some.mp hv
            exact ⟨hd, h1, h2, rfl⟩
        cases t with
        | nil => exact absurd rfl (key false [] rfl).1
        | cons d t =>
          by_cases h1 : d = '-'
          · subst h1
            obtain ⟨k1, k2, rfl, rfl⟩ := key _ _ (sign_minus t)
            exact .minus c t hc k1 k2
          · by_cases h2 : d = '+'
            · subst h2
              obtain ⟨k1, k2, rfl, rfl⟩ := key _ _ (sign_plus t)
              exact .plus c t hc k1 k2
            · obtain ⟨k1, k2, rfl, rfl⟩ := key _ _ (sign_other h1 h2)
              exact .plain c _ hc k1 k2
      · rw [if_neg hc] at h; cases h
  · intro h
    cases h with
    | none => exact ⟨false, 0, rfl, rfl, rfl⟩
    | plain c ds hc hne hd =>
      refine ⟨false, decValue ds, ?_, rfl, rfl⟩
      unfold parseExp
      simp only
      cases ds with
      | nil => exact absurd rfl hne
      | cons d t =>
        obtain ⟨h1, h2, -⟩ := digit_ne (hd d (by simp))
        rw [if_pos hc, sign_other h1 h2]
        simp only
        rw [if_neg hne, digitsVal_some.mpr ⟨hd, rfl⟩]
        rfl
    | plus c ds hc hne hd =>
      refine ⟨false, decValue ds, ?_, rfl, rfl⟩
      unfold parseExp
      simp only
      rw [if_pos hc, sign_plus]
      simp only
      rw [if_neg hne, digitsVal_some.mpr ⟨hd, rfl⟩]
      rfl
    | minus c ds hc hne hd =>
      refine ⟨true, decValue ds, ?_, rfl, rfl⟩
      unfold parseExp
      simp only
      rw [if_pos hc, sign_minus]
      simp only
      rw [if_neg hne, digitsVal_some.mpr ⟨hd, rfl⟩]
      rfl

theorem exponent_head {s : Str} {up down : Nat} (h : Exponent s up down) :
    s = [] ∨ ∃ c t, s = c :: t ∧ (c = 'e' ∨ c = 'E') := by
  cases h with
  | none => exact .inl rfl
  | plain c ds hc => exact .inr ⟨c, _, rfl, hc⟩
  | plus c ds hc => exact .inr ⟨c, _, rfl, hc⟩
  | minus c ds hc => exact .inr ⟨c, _, rfl, hc⟩

theorem takeWhile_digits {ds rest : Str} (hd : Digits ds) (hr : ∀ c t, rest = c :: t → isDigit c = false) :
    (ds ++ rest).takeWhile isDigit = ds ∧ (ds ++ rest).dropWhile isDigit = rest := by
  have hd' : ∀ c ∈ ds, isDigit c = true := fun c hc => isDigit_iff_le.mpr (hd c hc)
  rw [List.takeWhile_append_of_pos hd', List.dropWhile_append_of_pos hd']
  cases rest with
  | nil => simp
  | cons c t => simp [hr c t rfl]

theorem parseDecimal_iff {s : Str} {a b : Nat} : parseDecimal s = some (a, b) ↔ Decimal s a b := by
  have hall : ∀ t : Str, Digits (t.takeWhile isDigit) := fun t => digits_iff.mpr (List.all_takeWhile)
  constructor
  · intro h
    unfold parseDecimal at h
    simp only at h
    -- what follows the integer part
    obtain ⟨point, frac, rest, hs, hf, hp, hm⟩ : ∃ point frac rest, s.dropWhile isDigit = point ++ frac ++ rest ∧
        Digits frac ∧ (point = s!!"." ∨ point = [] ∧ frac = []) ∧
        fracPart (s.dropWhile isDigit) = (frac, rest) := by
      cases hdw : s.dropWhile isDigit with
      | nil => exact ⟨[], [], [], rfl, (by intro c hc; cases hc), .inr ⟨rfl, rfl⟩, rfl⟩
      | cons c r =>
        by_cases hc : c = '.'
        · subst hc
          refine ⟨s!!".", _, _, ?_, hall r, .inl rfl, rfl⟩
          rw [List.append_assoc, List.takeWhile_append_dropWhile]
          rfl
        · refine ⟨[], [], c :: r, rfl, (by intro c hc; cases hc), .inr ⟨rfl, rfl⟩, ?_⟩
          unfold fracPart
          split
          · rename_i e; cases e; exact absurd rfl hc
          · rfl
    rw [hm] at h
    simp only at h
    split at h
    · cases h
    · rename_i hne
      have hne' : s.takeWhile isDigit ++ frac ≠ [] := by
        intro e
        exact hne (List.append_eq_nil_iff.mp e)
      have hsum : s = s.takeWhile isDigit ++ point ++ frac ++ rest := by
        conv_lhs => rw [← List.takeWhile_append_dropWhile (p := isDigit) (l := s), hs]
        simp
      split at h
      · rename_i m e hv he
        obtain ⟨h1, h2⟩ := Prod.mk.inj (Option.some.inj h)
        obtain ⟨-, hm'⟩ := digitsVal_some.mp hv
        refine ⟨_, point, frac, rest, 0, e, hsum, hall s, hf, hne', hp,
          parseExp_iff.mp ⟨true, e, he, rfl, rfl⟩, ?_, h2.symm⟩
        rw [← h1, hm', Nat.pow_zero, Nat.mul_one]
      · rename_i m e hv he
        obtain ⟨h1, h2⟩ := Prod.mk.inj (Option.some.inj h)
        obtain ⟨-, hm'⟩ := digitsVal_some.mp hv
        refine ⟨_, point, frac, rest, e, 0, hsum, hall s, hf, hne', hp,
          parseExp_iff.mp ⟨false, e, he, rfl, rfl⟩, ?_, ?_⟩
        · rw [← h1, hm']
        · rw [← h2, Nat.pow_zero, Nat.mul_one]
      · cases h
  · rintro ⟨int, point, frac, ex, up, down, rfl, hi, hf, hne, hp, hex, rfl, rfl⟩
    have hexd : ∀ c t, ex = c :: t → isDigit c = false := by
      intro c t e
      rcases exponent_head hex with h | ⟨c', t', h, hc⟩
      · rw [h] at e; cases e
      · rw [h] at e; cases e
        rcases hc with rfl | rfl <;> decide
    have hrest : ∀ c t, point ++ frac ++ ex = c :: t → isDigit c = false := by
      rcases hp with rfl | ⟨rfl, rfl⟩
      · intro c t e; cases e; decide
      · exact hexd
    obtain ⟨t1, t2⟩ := takeWhile_digits hi hrest
    have hassoc : int ++ point ++ frac ++ ex = int ++ (point ++ frac ++ ex) := by simp
    have hfr : fracPart (point ++ frac ++ ex) = (frac, ex) := by
      rcases hp with rfl | ⟨rfl, rfl⟩
      · obtain ⟨u1, u2⟩ := takeWhile_digits hf hexd
        simp only [List.cons_append, List.nil_append, fracPart, u1, u2]
      · simp only [List.nil_append]
        unfold fracPart
        split
        · rename_i r
          rcases exponent_head hex with h | ⟨c', t', h, hc⟩
          · cases h
          · cases h; rcases hc with h | h <;> cases h
        · rfl
    obtain ⟨neg, n, hp', rfl, rfl⟩ := parseExp_iff.mpr hex
    unfold parseDecimal
    rw [hassoc, t1, t2]
    simp only [hfr]
    rw [if_neg (fun h => hne (by rw [h.1, h.2]; rfl)), digitsVal_some.mpr ⟨?_, rfl⟩, hp']
    · cases neg <;> simp
    · intro c hc
      rcases List.mem_append.mp hc with h | h
      · exact hi c h
      · exact hf c h

theorem decimal_pos {s : Str} {a b : Nat} (h : Decimal s a b) : 0 < b := by
  obtain ⟨int, point, frac, ex, up, down, -, -, -, -, -, -, -, rfl⟩ := h
  exact Nat.mul_pos (Nat.pow_pos (by omega)) (Nat.pow_pos (by omega))

theorem decimal_head {s : Str} {a b : Nat} (h : Decimal s a b) :
    ∃ c t, s = c :: t ∧ (('0' ≤ c ∧ c ≤ '9') ∨ c = '.') := by
  obtain ⟨int, point, frac, ex, up, down, rfl, hi, -, hne, hp, -⟩ := h
  cases int with
  | cons c t => exact ⟨c, _, rfl, .inl (hi c (by simp))⟩
  | nil =>
    rcases hp with rfl | ⟨rfl, rfl⟩
    · exact ⟨'.', _, rfl, .inr rfl⟩
    · exact absurd rfl hne

theorem eqIgnoreCase_word {s w : Str} (hw : isAscii w = true) : eqIgnoreCase s w = true ↔ sameName s w = true := by
  rw [sameName_iff]
  unfold eqIgnoreCase
  rw [beq_iff_eq]
  constructor
  · intro h
    refine ⟨?_, hw, h⟩
    have : isAscii (lower s) = true := by rw [h]; simpa using hw
    simpa using this
  · exact fun h => h.2.2

/-- None of the texts after the sign begins with a sign. -/
theorem signed_unique {s t : Str} {neg : Bool} (h : Signed s neg t)
    (ht : ∃ c u, t = c :: u ∧ c ≠ '-' ∧ c ≠ '+') : sign s = (neg, t) := by
  obtain ⟨c, u, rfl, h1, h2⟩ := ht
  rcases h with ⟨rfl, rfl⟩ | ⟨rfl, rfl | rfl⟩
  · rfl
  · rfl
  · exact sign_other h1 h2

theorem sign_signed (s : Str) : Signed s (sign s).1 (sign s).2 := by
  unfold sign Signed
  split <;> simp

theorem sameName_head {t : Str} {d : Char} {w : Str} (h : sameName t (d :: w) = true) :
    ∃ c u, t = c :: u ∧ sameChar c d = true := by
  cases t with
  | nil => simp [sameName] at h
  | cons c u =>
    simp only [sameName, Bool.and_eq_true] at h
    exact ⟨c, u, rfl, h.1⟩

/-- The number parser accepts exactly the number texts, and rounds correctly. -/
theorem parse_iff {F : FlFormat} (hp : 0 < F.prec) {s : Str} {x : Fl} : parse F s = some x ↔ NumberText F s x := by
  have hinf : ∀ t, eqIgnoreCase t s!!"inf" = true ↔ sameName t s!!"inf" = true := fun t => eqIgnoreCase_word (by decide)
  have hity : ∀ t, eqIgnoreCase t s!!"infinity" = true ↔ sameName t s!!"infinity" = true :=
    fun t => eqIgnoreCase_word (by decide)
  have hnan : ∀ t, eqIgnoreCase t s!!"nan" = true ↔ sameName t s!!"nan" = true := fun t => eqIgnoreCase_word (by decide)
  have hhead : ∀ t d w, (d = 'i' ∨ d = 'n') → sameName t (d :: w) = true →
      ∃ c u, t = c :: u ∧ c ≠ '-' ∧ c ≠ '+' ∧ ¬ ('0' ≤ c ∧ c ≤ '9') ∧ c ≠ '.' := by
    intro t d w hd h
    obtain ⟨c, u, rfl, hc⟩ := sameName_head h
    have hc' : c = d ∨ c.toNat + 32 = d.toNat := by
      simp only [sameChar, Bool.and_eq_true, Bool.or_eq_true, decide_eq_true_eq, beq_iff_eq] at hc
      rcases hc with ⟨⟨h1, h2⟩, (rfl | ⟨-, h3⟩) | ⟨⟨h3, h4⟩, h5⟩⟩
      · exact .inl rfl
      · exact .inr h3.symm
      · exfalso
        have h4' : d.toNat ≤ 90 := h4
        rcases hd with rfl | rfl <;> revert h4' <;> decide
    have hn : c.toNat = 105 ∨ c.toNat = 73 ∨ c.toNat = 110 ∨ c.toNat = 78 := by
      rcases hd with rfl | rfl <;> rcases hc' with rfl | h
      · exact .inl rfl
      · have : ('i' : Char).toNat = 105 := rfl
        omega
      · exact .inr (.inr (.inl rfl))
      · have : ('n' : Char).toNat = 110 := rfl
        omega
    refine ⟨c, u, rfl, ?_, ?_, ?_, ?_⟩
    · rintro rfl; revert hn; decide
    · rintro rfl; revert hn; decide
    · rintro ⟨-, h⟩
      have h : c.toNat ≤ 57 := h
      omega
    · rintro rfl; revert hn; decide
  constructor
  · intro h
    refine ⟨(sign s).1, (sign s).2, sign_signed s, ?_⟩
    unfold parse at h
    rcases hs : sign s with ⟨neg, t⟩
    rw [hs] at h
    simp only at h ⊢
    split at h
    · rename_i hw
      cases h
      exact .inr (.inl ⟨hw.imp (hinf t).mp (hity t).mp, rfl⟩)
    · split at h
      · rename_i hw
        cases h
        exact .inr (.inr ⟨(hnan t).mp hw, rfl⟩)
      · rw [Option.map_eq_some_iff] at h
        obtain ⟨⟨a, b⟩, h1, h2⟩ := h
        have hd := parseDecimal_iff.mp h1
        exact .inl ⟨a, b, hd, (nearestFloat_iff hp (decimal_pos hd)).mpr h2.symm⟩
  · rintro ⟨neg, t, hs, h⟩
    unfold parse
    rcases h with ⟨a, b, hd, hn⟩ | ⟨hw, rfl⟩ | ⟨hw, rfl⟩
    · obtain ⟨c, u, hcu, hc⟩ := decimal_head hd
      have hcs : c ≠ '-' ∧ c ≠ '+' := by
        rcases hc with hc | rfl
        · exact ⟨(digit_ne hc).1, (digit_ne hc).2.1⟩
        · decide
      rw [signed_unique hs ⟨c, u, hcu, hcs⟩]
      simp only
      have hno : ∀ d w, (d = 'i' ∨ d = 'n') → ¬ sameName t (d :: w) = true := by
        intro d w hdd hh
        obtain ⟨c', u', e, -, -, h3, h4⟩ := hhead t d w hdd hh
        rw [hcu] at e
        cases e
        rcases hc with hc | hc
        · exact h3 hc
        · exact h4 hc
      rw [if_neg, if_neg, parseDecimal_iff.mpr hd, (nearestFloat_iff hp (decimal_pos hd)).mp hn]
      · rfl
      · rw [hnan]; exact hno _ _ (.inr rfl)
      · rw [hinf, hity]
        rintro (h | h)
        · exact hno _ _ (.inl rfl) h
        · exact hno _ _ (.inl rfl) h
    · have : ∃ c u, t = c :: u ∧ c ≠ '-' ∧ c ≠ '+' := by
        rcases hw with hw | hw
        · obtain ⟨c, u, h1, h2, h3, -⟩ := hhead t _ _ (.inl rfl) hw; exact ⟨c, u, h1, h2, h3⟩
        · obtain ⟨c, u, h1, h2, h3, -⟩ := hhead t _ _ (.inl rfl) hw; exact ⟨c, u, h1, h2, h3⟩
      rw [signed_unique hs this]
      simp only
      rw [if_pos (hw.imp (hinf t).mpr (hity t).mpr)]
    · obtain ⟨c, u, h1, h2, h3, -⟩ := hhead t _ _ (.inr rfl) hw
      rw [signed_unique hs ⟨c, u, h1, h2, h3⟩]
      simp only
      rw [if_neg, if_pos ((hnan t).mpr hw)]
      rw [hinf, hity, sameName_iff, sameName_iff]
      rw [sameName_iff] at hw
      rintro (h | h)
      · rw [hw.2.2] at h; exact absurd h.2.2 (by decide)
      · rw [hw.2.2] at h; exact absurd h.2.2 (by decide)

end Fl

end HT
