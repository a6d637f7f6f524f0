import Verif.Core.Str
import Mathlib.Data.List.Basic

namespace HT

/-! ### Characters -/

theorem toNat_ofNat {n : Nat} (h : n < 0xD800) : (Char.ofNat n).toNat = n := by
  have : n.isValidChar := Or.inl h
  simp [Char.ofNat, this, Char.toNat, Char.ofNatAux, UInt32.toNat]

theorem char_eq_of_toNat {a b : Char} (h : a.toNat = b.toNat) : a = b := by
  apply Char.ext
  apply UInt32.toNat_inj.mp
  exact h

theorem lowerC_toNat (c : Char) :
    (lowerC c).toNat = if 65 ≤ c.toNat ∧ c.toNat ≤ 90 then c.toNat + 32 else c.toNat := by
  unfold lowerC
  split
  · rw [toNat_ofNat (by omega)]
  · rfl

theorem upperC_toNat (c : Char) :
    (upperC c).toNat = if 97 ≤ c.toNat ∧ c.toNat ≤ 122 then c.toNat - 32 else c.toNat := by
  unfold upperC
  split
  · rw [toNat_ofNat (by omega)]
  · rfl

@[simp] theorem lowerC_lowerC (c : Char) : lowerC (lowerC c) = lowerC c := by
  apply char_eq_of_toNat
  rw [lowerC_toNat (lowerC c), lowerC_toNat c]
  (repeat' split) <;> omega

@[simp] theorem upperC_upperC (c : Char) : upperC (upperC c) = upperC c := by
  apply char_eq_of_toNat
  rw [upperC_toNat (upperC c), upperC_toNat c]
  (repeat' split) <;> omega

@[simp] theorem upperC_lowerC (c : Char) : upperC (lowerC c) = upperC c := by
  apply char_eq_of_toNat
  rw [upperC_toNat, upperC_toNat, lowerC_toNat c]
  (repeat' split) <;> omega

@[simp] theorem lowerC_upperC (c : Char) : lowerC (upperC c) = lowerC c := by
  apply char_eq_of_toNat
  rw [lowerC_toNat, lowerC_toNat, upperC_toNat c]
  (repeat' split) <;> omega

@[simp] theorem lower_lower (s : Str) : lower (lower s) = lower s := by
  simp [lower, Function.comp_def]

@[simp] theorem upper_lower (s : Str) : upper (lower s) = upper s := by
  simp [lower, upper, Function.comp_def]

@[simp] theorem lower_upper (s : Str) : lower (upper s) = lower s := by
  simp [lower, upper, Function.comp_def]

@[simp] theorem isAsciiC_lowerC (c : Char) : isAsciiC (lowerC c) = isAsciiC c := by
  unfold isAsciiC
  rw [lowerC_toNat]
  split
  · simp; omega
  · rfl

@[simp] theorem isAscii_lower (s : Str) : isAscii (lower s) = isAscii s := by
  simp [isAscii, lower, Function.comp_def]

@[simp] theorem isAsciiC_upperC (c : Char) : isAsciiC (upperC c) = isAsciiC c := by
  unfold isAsciiC
  rw [upperC_toNat]
  by_cases h : 97 ≤ c.toNat ∧ c.toNat ≤ 122
  · rw [if_pos h, Bool.eq_iff_iff]; simp; omega
  · rw [if_neg h]

@[simp] theorem isAscii_upper (s : Str) : isAscii (upper s) = isAscii s := by
  simp [isAscii, upper, Function.comp_def]

@[simp] theorem isAscii_nil : isAscii [] = true := rfl
@[simp] theorem isAscii_append (a b : Str) : isAscii (a ++ b) = (isAscii a && isAscii b) := by
  simp [isAscii]
@[simp] theorem isAscii_cons (c : Char) (s : Str) : isAscii (c :: s) = (isAsciiC c && isAscii s) := by
  simp [isAscii]

theorem upper_eq_iff_lower_eq (a b : Str) : upper a = upper b ↔ lower a = lower b := by
  constructor
  · intro h
    rw [← lower_upper a, ← lower_upper b, h]
  · intro h
    rw [← upper_lower a, ← upper_lower b, h]

/-! ### split -/

theorem split_ne_nil (c : Char) (s : Str) : split c s ≠ [] := by
  cases s with
  | nil => simp [split]
  | cons x xs =>
    unfold split
    split
    · simp
    · split <;> simp

theorem split_of_not_mem {c : Char} {s : Str} (h : c ∉ s) : split c s = [s] := by
  induction s with
  | nil => rfl
  | cons x xs ih =>
    simp only [List.mem_cons, not_or] at h
    unfold split
    rw [if_neg (fun e => h.1 e.symm), ih h.2]

theorem split_append_sep {c : Char} {a : Str} (h : c ∉ a) (b : Str) :
    split c (a ++ c :: b) = a :: split c b := by
  induction a with
  | nil => simp [split]
  | cons x xs ih =>
    simp only [List.mem_cons, not_or] at h
    rw [List.cons_append, split, if_neg (fun e => h.1 e.symm), ih h.2]

theorem not_mem_of_mem_split {c : Char} {s p : Str} (h : p ∈ split c s) : c ∉ p := by
  induction s generalizing p with
  | nil => simp [split] at h; simp [h]
  | cons x xs ih =>
    unfold split at h
    split at h
    · rcases List.mem_cons.mp h with rfl | h
      · simp
      · exact ih h
    · rename_i hx
      split at h
      · rename_i e; exact absurd e (split_ne_nil c xs)
      · rename_i q qs e
        rcases List.mem_cons.mp h with rfl | h
        · have := ih (p := q) (by simp [e])
          simp [this, Ne.symm hx]
        · exact ih (by simp [e, h])

theorem join_split (c : Char) (s : Str) : join [c] (split c s) = s := by
  induction s with
  | nil => rfl
  | cons x xs ih =>
    unfold split
    split
    · rename_i h
      subst h
      cases e : split x xs with
      | nil => exact absurd e (split_ne_nil x xs)
      | cons p ps => rw [e] at ih; simp [join, ih]
    · split
      · rename_i e; exact absurd e (split_ne_nil c xs)
      · rename_i p ps e
        rw [e] at ih
        cases ps with
        | nil => simp [join] at ih ⊢; exact ih
        | cons q qs => simp [join] at ih ⊢; exact ih

theorem mem_of_mem_split {c x : Char} {s p : Str} (hp : p ∈ split c s) (hx : x ∈ p) : x ∈ s := by
  induction s generalizing p with
  | nil => simp [split] at hp; simp [hp] at hx
  | cons y ys ih =>
    unfold split at hp
    split at hp
    · rcases List.mem_cons.mp hp with rfl | hp
      · simp at hx
      · exact List.mem_cons_of_mem _ (ih hp hx)
    · split at hp
      · rename_i e; exact absurd e (split_ne_nil c ys)
      · rename_i q qs e
        rcases List.mem_cons.mp hp with rfl | hp
        · rcases List.mem_cons.mp hx with rfl | hx
          · simp
          · exact List.mem_cons_of_mem _ (ih (by simp [e]) hx)
        · exact List.mem_cons_of_mem _ (ih (by simp [e, hp]) hx)

/-- Splitting a join at the first character of the separator. -/
theorem split_join {c : Char} {t : Str} (ht : c ∉ t) {x : Str} {xs : List Str}
    (h : ∀ p ∈ x :: xs, c ∉ p) :
    split c (join (c :: t) (x :: xs)) = x :: xs.map (t ++ ·) := by
  induction xs generalizing x with
  | nil => simp [join, split_of_not_mem (h x (by simp))]
  | cons y ys ih =>
    have hx := h x (by simp)
    have hrest := ih (x := y) (fun p hp => h p (by simp at hp ⊢; right; exact hp))
    have : join (c :: t) (x :: y :: ys) = x ++ c :: (t ++ join (c :: t) (y :: ys)) := by
      simp [join]
    rw [this, split_append_sep hx]
    congr 1
    have key : ∀ (t : Str), c ∉ t → ∀ s : Str, ∀ p ps, split c s = p :: ps →
        split c (t ++ s) = (t ++ p) :: ps := by
      intro t
      induction t with
      | nil => intro _ s p ps h; simpa using h
      | cons a t iht =>
        intro ha s p ps h
        simp only [List.mem_cons, not_or] at ha
        rw [List.cons_append]
        unfold split
        rw [if_neg (fun e => ha.1 e.symm), iht ha.2 s p ps h]
        simp
    rw [key t ht _ _ _ hrest]
    simp

theorem split_append_left {c : Char} {t : Str} (ht : c ∉ t) {s p : Str} {ps : List Str}
    (h : split c s = p :: ps) : split c (t ++ s) = (t ++ p) :: ps := by
  induction t with
  | nil => simpa using h
  | cons a t iht =>
    simp only [List.mem_cons, not_or] at ht
    rw [List.cons_append]
    unfold split
    rw [if_neg (fun e => ht.1 e.symm), iht ht.2]
    simp

/-! ### splitOnce -/

theorem splitOnce_append {c : Char} {a : Str} (h : c ∉ a) (b : Str) :
    splitOnce c (a ++ c :: b) = some (a, b) := by
  induction a with
  | nil => simp [splitOnce]
  | cons x xs ih =>
    simp only [List.mem_cons, not_or] at h
    rw [List.cons_append]
    unfold splitOnce
    rw [if_neg (fun e => h.1 e.symm), ih h.2]
    rfl

theorem splitOnce_eq_none {c : Char} {s : Str} : splitOnce c s = none ↔ c ∉ s := by
  induction s with
  | nil => simp [splitOnce]
  | cons x xs ih =>
    unfold splitOnce
    split
    · rename_i h; simp [h]
    · rename_i h
      simp only [Option.map_eq_none_iff, ih, List.mem_cons, not_or]
      exact ⟨fun h' => ⟨fun e => h e.symm, h'⟩, fun h' => h'.2⟩

theorem splitOnce_eq_some {c : Char} {s a b : Str} (h : splitOnce c s = some (a, b)) :
    s = a ++ c :: b ∧ c ∉ a := by
  induction s generalizing a with
  | nil => simp [splitOnce] at h
  | cons x xs ih =>
    unfold splitOnce at h
    split at h
    · rename_i hx
      simp at h
      obtain ⟨rfl, rfl⟩ := h
      simp [hx]
    · rename_i hx
      cases e : splitOnce c xs with
      | none => simp [e] at h
      | some p =>
        obtain ⟨a', b'⟩ := p
        simp [e] at h
        obtain ⟨rfl, rfl⟩ := h
        have := ih e
        simp [this.1, this.2, Ne.symm hx]

/-! ### trim -/

/-- No whitespace at either end. -/
def Trimmed (s : Str) : Prop :=
  (∀ c, s.head? = some c → isWs c = false) ∧ (∀ c, s.getLast? = some c → isWs c = false)

instance (s : Str) : Decidable (Trimmed s) := by
  unfold Trimmed
  have h1 : Decidable (∀ c, s.head? = some c → isWs c = false) := by
    cases h : s.head? with
    | none => exact isTrue (by simp)
    | some d => exact decidable_of_iff (isWs d = false) (by simp)
  have h2 : Decidable (∀ c, s.getLast? = some c → isWs c = false) := by
    cases h : s.getLast? with
    | none => exact isTrue (by simp)
    | some d => exact decidable_of_iff (isWs d = false) (by simp)
  exact instDecidableAnd

theorem trimStart_of_head {s : Str} (h : ∀ c, s.head? = some c → isWs c = false) :
    trimStart s = s := by
  cases s with
  | nil => rfl
  | cons x xs => simp [trimStart, List.dropWhile, h x rfl]

theorem trimEnd_of_last {s : Str} (h : ∀ c, s.getLast? = some c → isWs c = false) :
    trimEnd s = s := by
  unfold trimEnd
  have : s.reverse.dropWhile isWs = s.reverse := by
    apply trimStart_of_head
    simpa using h
  rw [this, List.reverse_reverse]

theorem trim_of_trimmed {s : Str} (h : Trimmed s) : trim s = s := by
  unfold trim
  rw [trimStart_of_head h.1, trimEnd_of_last h.2]

theorem trimStart_ws_append {w : Str} (hw : ∀ c ∈ w, isWs c = true) (s : Str) :
    trimStart (w ++ s) = trimStart s := by
  induction w with
  | nil => rfl
  | cons x xs ih =>
    simp only [trimStart, List.cons_append, List.dropWhile]
    rw [hw x (by simp)]
    exact ih (fun c hc => hw c (by simp [hc]))

theorem trim_ws_append {w : Str} (hw : ∀ c ∈ w, isWs c = true) (s : Str) :
    trim (w ++ s) = trim s := by
  unfold trim
  rw [trimStart_ws_append hw]

@[simp] theorem trim_space_cons (s : Str) : trim (' ' :: s) = trim s :=
  trim_ws_append (w := [' ']) (by decide) s

@[simp] theorem trimStart_space_cons (s : Str) : trimStart (' ' :: s) = trimStart s :=
  trimStart_ws_append (w := [' ']) (by decide) s

theorem trimmed_of_forall {s : Str} (h : ∀ c ∈ s, isWs c = false) : Trimmed s :=
  ⟨fun c hc => h c (List.mem_of_mem_head? (by simp [hc])),
   fun c hc => h c (List.mem_of_mem_getLast? (by simp [hc]))⟩

theorem trimStart_suffix (s : Str) : ∃ w, s = w ++ trimStart s ∧ ∀ c ∈ w, isWs c = true := by
  refine ⟨s.takeWhile isWs, ?_, ?_⟩
  · simp [trimStart]
  · intro c hc
    exact List.all_eq_true.mp (List.all_takeWhile (p := isWs) (l := s)) c hc

theorem trimStart_head {s : Str} : ∀ c, (trimStart s).head? = some c → isWs c = false := by
  intro c hc
  unfold trimStart at hc
  induction s with
  | nil => simp at hc
  | cons x xs ih =>
    simp only [List.dropWhile] at hc
    split at hc
    · exact ih hc
    · simp at hc; subst hc; assumption

theorem trimEnd_prefix (s : Str) : ∃ w, s = trimEnd s ++ w ∧ ∀ c ∈ w, isWs c = true := by
  obtain ⟨w, hw, hw'⟩ := trimStart_suffix s.reverse
  refine ⟨w.reverse, ?_, ?_⟩
  · unfold trimEnd
    have := congrArg List.reverse hw
    simpa [trimStart] using this
  · simpa using hw'

theorem trimEnd_last {s : Str} : ∀ c, (trimEnd s).getLast? = some c → isWs c = false := by
  intro c hc
  apply trimStart_head (s := s.reverse) c
  unfold trimEnd at hc
  simpa [trimStart] using hc

theorem trim_spec (s : Str) : ∃ w w', s = w ++ trim s ++ w' ∧ (∀ c ∈ w, isWs c = true) ∧
    (∀ c ∈ w', isWs c = true) := by
  obtain ⟨w, hw, hw'⟩ := trimStart_suffix s
  obtain ⟨v, hv, hv'⟩ := trimEnd_prefix (trimStart s)
  exact ⟨w, v, by unfold trim; rw [List.append_assoc, ← hv, ← hw], hw', hv'⟩

theorem trimmed_trim (s : Str) : Trimmed (trim s) := by
  refine ⟨?_, trimEnd_last⟩
  intro c hc
  apply trimStart_head (s := s) c
  unfold trim at hc
  obtain ⟨v, hv, _⟩ := trimEnd_prefix (trimStart s)
  rw [hv]
  cases h : trimEnd (trimStart s) with
  | nil => simp [h] at hc
  | cons x xs => simp [h] at hc; simp [hc]

@[simp] theorem trim_trim (s : Str) : trim (trim s) = trim s := trim_of_trimmed (trimmed_trim s)

theorem mem_of_mem_trim {s : Str} {c : Char} (h : c ∈ trim s) : c ∈ s := by
  obtain ⟨w, v, hs, _, _⟩ := trim_spec s
  rw [hs]; simp [h]

theorem trim_append_ws {w : Str} (hw : ∀ c ∈ w, isWs c = true) {s : Str} (hs : Trimmed s) :
    trim (s ++ w) = s := by
  unfold trim
  cases s with
  | nil =>
    have : trimStart ([] ++ w) = [] := by
      have := trimStart_ws_append hw []
      simpa [trimStart] using this
    rw [this]; rfl
  | cons x xs =>
    rw [trimStart_of_head (s := x :: xs ++ w) (by simpa using hs.1)]
    unfold trimEnd
    rw [List.reverse_append]
    have := trimStart_ws_append (w := w.reverse) (by simpa using hw) (x :: xs).reverse
    unfold trimStart at this
    rw [this]
    exact trimEnd_of_last hs.2

/-- `trim` strips exactly the whitespace around a trimmed core. -/
theorem trim_surround {w w' : Str} (hw : ∀ c ∈ w, isWs c = true) (hw' : ∀ c ∈ w', isWs c = true)
    {s : Str} (hs : Trimmed s) : trim (w ++ s ++ w') = s := by
  rw [List.append_assoc, trim_ws_append hw, trim_append_ws hw' hs]

/-! ### prefixes -/

theorem stripPrefix_append (p s : Str) : stripPrefix p (p ++ s) = some s := by
  induction p with
  | nil => simp [stripPrefix]
  | cons a p ih => simp [stripPrefix, ih]

theorem stripPrefix_eq_some {p s r : Str} : stripPrefix p s = some r ↔ s = p ++ r := by
  constructor
  · intro h
    induction p generalizing s with
    | nil => simp [stripPrefix] at h; simp [h]
    | cons a p ih =>
      cases s with
      | nil => simp [stripPrefix] at h
      | cons b s =>
        unfold stripPrefix at h
        split at h
        · rename_i e; subst e; rw [ih h]; simp
        · simp at h
  · rintro rfl; exact stripPrefix_append p r

theorem startsWith_iff {p s : Str} : startsWith p s = true ↔ ∃ r, s = p ++ r := by
  unfold startsWith
  rw [Option.isSome_iff_exists]
  simp [stripPrefix_eq_some]

/-! ### bytes -/

theorem utf8Len_pos (c : Char) : 0 < utf8Len c := by
  unfold utf8Len; split <;> (try split) <;> (try split) <;> omega

theorem utf8Len_ascii {c : Char} (h : isAsciiC c = true) : utf8Len c = 1 := by
  unfold isAsciiC at h
  simp at h
  simp [utf8Len, h]

theorem byteLen_ascii {s : Str} (h : isAscii s = true) : byteLen s = s.length := by
  induction s with
  | nil => rfl
  | cons x xs ih =>
    simp at h
    simp [byteLen, utf8Len_ascii h.1] at *
    rw [ih h.2]; omega

theorem splitAtByte_ascii {s : Str} (h : isAscii s = true) {n : Nat} (hn : n ≤ s.length) :
    splitAtByte n s = .ok (s.take n, s.drop n) := by
  induction n generalizing s with
  | zero => unfold splitAtByte; rfl
  | succ n ih =>
    cases s with
    | nil => simp at hn
    | cons x xs =>
      simp at h hn
      unfold splitAtByte
      rw [utf8Len_ascii h.1]
      simp [ih h.2 hn]

end HT
