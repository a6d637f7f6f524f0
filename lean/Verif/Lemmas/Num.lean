import Verif.Core.Num
import Verif.Spec.Num
import Verif.Lemmas.Str

namespace HT

theorem digitC_toNat {d : Nat} (h : d < 16) :
    (digitC d).toNat = if d < 10 then 48 + d else 87 + d := by
  unfold digitC
  split <;> rw [toNat_ofNat (by omega)]

theorem toDigit_digitC {b d : Nat} (hb : b ≤ 16) (h : d < b) : toDigit b (digitC d) = some d := by
  unfold toDigit
  simp only [digitC_toNat (show d < 16 by omega)]
  by_cases hd : d < 10
  · simp only [hd, if_true]
    rw [if_pos (c := 48 ≤ 48 + d ∧ 48 + d ≤ 57) (by omega)]
    have : 48 + d - 48 = d := by omega
    rw [this, if_pos h]
  · simp only [hd, if_false]
    rw [if_neg (c := 48 ≤ 87 + d ∧ 87 + d ≤ 57) (by omega),
      if_pos (c := 97 ≤ 87 + d ∧ 87 + d ≤ 102) (by omega)]
    have : 87 + d - 87 = d := by omega
    rw [this, if_pos h]

theorem digitsVal_append (b acc : Nat) (s t : Str) :
    digitsVal b acc (s ++ t) = (digitsVal b acc s).bind fun v => digitsVal b v t := by
  induction s generalizing acc with
  | nil => rfl
  | cons c cs ih =>
    simp only [List.cons_append, digitsVal]
    cases toDigit b c with
    | none => rfl
    | some d => exact ih _

theorem digitsVal_natStr {b : Nat} (hb : 2 ≤ b) (hb' : b ≤ 16) (n : Nat) :
    digitsVal b 0 (natStr b n) = some n := by
  induction n using Nat.strongRecOn with
  | ind n ih =>
    unfold natStr
    split
    · rename_i h
      have : n < b := by omega
      simp [digitsVal, toDigit_digitC hb' this]
    · rename_i h
      rw [digitsVal_append, ih (n / b) (Nat.div_lt_self (by omega) (by omega))]
      simp [digitsVal, toDigit_digitC hb' (Nat.mod_lt n (show b > 0 by omega))]
      exact Nat.div_add_mod' n b

theorem natStr_ne_nil (b n : Nat) : natStr b n ≠ [] := by
  unfold natStr; split <;> simp

/-- Every character of a printed number is a digit of the base. -/
theorem natStr_digits {b : Nat} (hb : 2 ≤ b) (n : Nat) :
    ∀ c ∈ natStr b n, ∃ d, d < b ∧ c = digitC d := by
  induction n using Nat.strongRecOn with
  | ind n ih =>
    intro c hc
    unfold natStr at hc
    split at hc
    · simp at hc; exact ⟨n, by omega, hc⟩
    · rename_i h
      rcases List.mem_append.mp hc with hc | hc
      · exact ih _ (Nat.div_lt_self (by omega) (by omega)) c hc
      · simp at hc; exact ⟨n % b, Nat.mod_lt _ (by omega), hc⟩

theorem digitC_ne_plus {d : Nat} (h : d < 16) : digitC d ≠ '+' := by
  intro e
  have := congrArg Char.toNat e
  rw [digitC_toNat h] at this
  have h2 : ('+' : Char).toNat = 43 := by decide
  split at this <;> omega

theorem dropPlus_of_head {s : Str} (h : s.head? ≠ some '+') : dropPlus s = s := by
  unfold dropPlus
  split
  · simp at h
  · rfl

theorem dropPlus_natStr {b : Nat} (hb : 2 ≤ b) (hb' : b ≤ 16) (n : Nat) :
    dropPlus (natStr b n) = natStr b n := by
  apply dropPlus_of_head
  intro h
  obtain ⟨d, hd, e⟩ := natStr_digits hb n '+' (List.mem_of_mem_head? (by simp [h]))
  exact digitC_ne_plus (by omega) e.symm

theorem parseRadix_of_digits {b bound n : Nat} {s : Str} (hp : s.head? ≠ some '+') (hs : s ≠ [])
    (hv : digitsVal b 0 s = some n) (hn : n < bound) : parseRadix b bound s = some n := by
  unfold parseRadix
  rw [dropPlus_of_head hp]
  cases s with
  | nil => simp at hs
  | cons c cs => simp [hv, hn]

theorem parseRadix_natStr {b bound n : Nat} (hb : 2 ≤ b) (hb' : b ≤ 16) (hn : n < bound) :
    parseRadix b bound (natStr b n) = some n := by
  unfold parseRadix
  rw [dropPlus_natStr hb hb']
  cases h : natStr b n with
  | nil => exact absurd h (natStr_ne_nil b n)
  | cons c cs =>
    simp only
    rw [← h, digitsVal_natStr hb hb']
    simp [hn]

theorem parseUInt_dec {bound n : Nat} (hn : n < bound) : parseUInt bound (dec n) = some n :=
  parseRadix_natStr (by omega) (by omega) hn

theorem dec_digits (n : Nat) : ∀ c ∈ dec n, isDigit c = true := by
  intro c hc
  obtain ⟨d, hd, rfl⟩ := natStr_digits (by omega) n c hc
  unfold isDigit
  rw [digitC_toNat (by omega)]
  simp [hd]; omega

theorem isWs_of_isDigit {c : Char} (h : isDigit c = true) : isWs c = false := by
  unfold isDigit at h
  simp at h
  unfold isWs
  simp
  omega

theorem isAsciiC_of_isDigit {c : Char} (h : isDigit c = true) : isAsciiC c = true := by
  unfold isDigit at h
  simp at h
  unfold isAsciiC
  simp
  omega

theorem trimmed_dec (n : Nat) : Trimmed (dec n) :=
  trimmed_of_forall fun c hc => isWs_of_isDigit (dec_digits n c hc)

theorem isAscii_dec (n : Nat) : isAscii (dec n) = true := by
  unfold isAscii
  rw [List.all_eq_true]
  exact fun c hc => isAsciiC_of_isDigit (dec_digits n c hc)

theorem not_mem_dec {c : Char} (h : isDigit c = false) (n : Nat) : c ∉ dec n := by
  intro hc
  rw [dec_digits n c hc] at h
  simp at h

theorem dec_ne_nil (n : Nat) : dec n ≠ [] := natStr_ne_nil 10 n

theorem digitsVal_zeros {b : Nat} (hb : 0 < b) (k : Nat) (s : Str) :
    digitsVal b 0 (List.replicate k '0' ++ s) = digitsVal b 0 s := by
  induction k with
  | zero => rfl
  | succ k ih =>
    rw [List.replicate_succ, List.cons_append, digitsVal]
    have : toDigit b '0' = some 0 := by simp [toDigit, hb]
    rw [this]
    simpa using ih

theorem digitsVal_hexPad (w n : Nat) : digitsVal 16 0 (hexPad w n) = some n := by
  unfold hexPad zpad
  rw [digitsVal_zeros (by omega), digitsVal_natStr (by omega) (by omega)]

theorem hexPad_chars (w n : Nat) : ∀ c ∈ hexPad w n, ∃ d, d < 16 ∧ c = digitC d := by
  intro c hc
  unfold hexPad zpad at hc
  rcases List.mem_append.mp hc with hc | hc
  · have := List.eq_of_mem_replicate hc
    exact ⟨0, by omega, by rw [this]; rfl⟩
  · exact natStr_digits (by omega) n c hc

theorem parseRadix_hexPad {w n bound : Nat} (hn : n < bound) :
    parseRadix 16 bound (hexPad w n) = some n := by
  apply parseRadix_of_digits
  · intro h
    obtain ⟨d, hd, e⟩ := hexPad_chars w n '+' (List.mem_of_mem_head? (by simp [h]))
    exact digitC_ne_plus hd e.symm
  · unfold hexPad zpad
    simp [natStr_ne_nil]
  · exact digitsVal_hexPad w n
  · exact hn

/-! ### What the integer parser accepts -/

theorem toDigit_ten (c : Char) :
    toDigit 10 c = if isDigit c = true then some (c.toNat - 48) else none := by
  unfold toDigit isDigit
  by_cases h : 48 ≤ c.toNat ∧ c.toNat ≤ 57
  · simp [h]; omega
  · simp only [h, if_false]
    rw [if_neg]
    · simp; omega
    · split
      · omega
      · split <;> omega

theorem digitsVal_ten (acc : Nat) (s : Str) :
    digitsVal 10 acc s =
      if s.all isDigit then some (s.foldl (fun a c => a * 10 + (c.toNat - 48)) acc) else none := by
  induction s generalizing acc with
  | nil => rfl
  | cons c cs ih =>
    simp only [digitsVal, toDigit_ten]
    by_cases h : isDigit c = true
    · simp only [h, if_true, List.all_cons, Bool.true_and, List.foldl_cons]
      exact ih _
    · simp [h]

theorem isDigit_iff_le {c : Char} : isDigit c = true ↔ '0' ≤ c ∧ c ≤ '9' := by
  unfold isDigit
  simp only [Bool.and_eq_true, decide_eq_true_eq, Char.le_def, UInt32.le_iff_toNat_le]
  rfl

/-- The unsigned parser accepts exactly the numerals below its bound. -/
theorem parseUInt_iff {b n : Nat} {s : Str} :
    parseUInt b s = some n ↔ Spec.Numeral s n ∧ n < b := by
  have key : ∀ ds : Str, (match ds with
      | [] => none
      | c :: cs => match digitsVal 10 0 (c :: cs) with
        | none => none
        | some n => if n < b then some n else none) = some n ↔
      (ds ≠ [] ∧ (∀ c ∈ ds, '0' ≤ c ∧ c ≤ '9') ∧ n = Spec.decValue ds) ∧ n < b := by
    intro ds
    cases ds with
    | nil => simp
    | cons c cs =>
      simp only [digitsVal_ten]
      by_cases h : (c :: cs).all isDigit = true
      · have h' : ∀ x ∈ c :: cs, '0' ≤ x ∧ x ≤ '9' := by
          intro x hx
          exact isDigit_iff_le.mp (List.all_eq_true.mp h x hx)
        rw [if_pos h]
        simp only [Option.ite_none_right_eq_some, Option.some.injEq]
        constructor
        · rintro ⟨h1, rfl⟩
          exact ⟨⟨by simp, h', rfl⟩, h1⟩
        · rintro ⟨⟨-, -, rfl⟩, h2⟩
          exact ⟨h2, rfl⟩
      · rw [if_neg h]
        simp only [reduceCtorEq, false_iff]
        rintro ⟨⟨-, h', -⟩, -⟩
        exact h (List.all_eq_true.mpr fun x hx => isDigit_iff_le.mpr (h' x hx))
  unfold parseUInt parseRadix
  refine Iff.trans (key _) ?_
  unfold Spec.Numeral
  constructor
  · rintro ⟨⟨h1, h2, h3⟩, h4⟩
    refine ⟨⟨_, h1, ?_, h2, h3⟩, h4⟩
    unfold dropPlus
    split
    · exact .inr rfl
    · exact .inl rfl
  · rintro ⟨⟨ds, h1, h2, h3, h4⟩, h5⟩
    have : dropPlus s = ds := by
      rcases h2 with rfl | rfl
      · apply dropPlus_of_head
        intro hh
        have := (h3 '+' (List.mem_of_mem_head? (by simp [hh]))).1
        exact absurd this (by decide)
      · rfl
    rw [this]
    exact ⟨⟨h1, h3, h4⟩, h5⟩

theorem decValue_lt (ds : Str) (h : ∀ c ∈ ds, '0' ≤ c ∧ c ≤ '9') : Spec.decValue ds < 10 ^ ds.length := by
  have key : ∀ acc, ds.foldl (fun a c => a * 10 + (c.toNat - 48)) acc < (acc + 1) * 10 ^ ds.length := by
    induction ds with
    | nil => simp
    | cons c cs ih =>
      intro acc
      have h1 := ih (fun x hx => h x (by simp [hx])) (acc * 10 + (c.toNat - 48))
      have h2 := isDigit_iff_le.mpr (h c (by simp))
      simp only [isDigit, Bool.and_eq_true, decide_eq_true_eq] at h2
      simp only [List.foldl_cons, List.length_cons]
      refine Nat.lt_of_lt_of_le h1 ?_
      rw [Nat.pow_succ, Nat.mul_comm (10 ^ cs.length) 10, ← Nat.mul_assoc]
      exact Nat.mul_le_mul_right _ (by omega)
  simpa [Spec.decValue] using key 0

theorem numeral_lt {s : Str} {n : Nat} (h : Spec.Numeral s n) : n < 10 ^ s.length := by
  obtain ⟨ds, -, h2, h3, rfl⟩ := h
  refine Nat.lt_of_lt_of_le (decValue_lt ds h3) (Nat.pow_le_pow_right (by omega) ?_)
  rcases h2 with rfl | rfl <;> simp

theorem numeral_dec (n : Nat) : Spec.Numeral (dec n) n :=
  (parseUInt_iff.mp (parseUInt_dec (Nat.lt_succ_self n))).1

theorem numeral_unique {s : Str} {n m : Nat} (h : Spec.Numeral s n) (h' : Spec.Numeral s m) : n = m := by
  have h1 := (parseUInt_iff (b := max n m + 1)).mpr ⟨h, by omega⟩
  have h2 := (parseUInt_iff (b := max n m + 1)).mpr ⟨h', by omega⟩
  rw [h1] at h2
  exact Option.some.inj h2

end HT
