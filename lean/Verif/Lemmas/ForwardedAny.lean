import Verif.Spec.ForwardedAny
import Verif.Lemmas.Forwarded

/-! The `Forwarded` parser on any text. -/

namespace HT

open Spec ParseUtils

/-! ### Slicing -/

theorem byteLen_cons (c : Char) (s : Str) : byteLen (c :: s) = utf8Len c + byteLen s := by
  simp [byteLen]

theorem byteLen_append (a b : Str) : byteLen (a ++ b) = byteLen a + byteLen b := by
  simp [byteLen]

theorem splitAtByte_of (a b : Str) : splitAtByte (byteLen a) (a ++ b) = .ok (a, b) := by
  induction a with
  | nil => unfold splitAtByte; rfl
  | cons c a ih =>
    have hp := utf8Len_pos c
    rw [byteLen_cons]
    cases hn : utf8Len c + byteLen a with
    | zero => omega
    | succ n =>
      rw [List.cons_append]
      unfold splitAtByte
      have e : n + 1 - utf8Len c = byteLen a := by omega
      rw [if_pos (by omega), e, ih]
      rfl

/-- A slice that starts inside a character panics. -/
theorem splitAtByte_inside {n : Nat} {a : Str} {c : Char} {r : Str} (h1 : byteLen a < n)
    (h2 : n < byteLen a + utf8Len c) : splitAtByte n (a ++ c :: r) = .panic := by
  induction a generalizing n with
  | nil =>
    cases n with
    | zero => cases h1
    | succ n =>
      have : byteLen [] = 0 := rfl
      rw [List.nil_append]
      unfold splitAtByte
      rw [if_neg (by omega)]
  | cons x a ih =>
    rw [byteLen_cons] at h1 h2
    cases n with
    | zero => cases h1
    | succ n =>
      rw [List.cons_append]
      unfold splitAtByte
      rw [if_pos (by omega), ih (by omega) (by omega)]
      rfl

/-- A slice past the end panics. -/
theorem splitAtByte_past {n : Nat} {s : Str} (h : byteLen s < n) : splitAtByte n s = .panic := by
  induction s generalizing n with
  | nil =>
    cases n with
    | zero => cases h
    | succ n => unfold splitAtByte; rfl
  | cons x s ih =>
    rw [byteLen_cons] at h
    cases n with
    | zero => cases h
    | succ n =>
      unfold splitAtByte
      have hp := utf8Len_pos x
      rw [if_pos (by omega), ih (by omega)]
      rfl

/-- Every index is past the end, inside a character or between two characters. -/
theorem index_cases (n : Nat) (s : Str) : byteLen s < n ∨
    (∃ a c r, s = a ++ c :: r ∧ byteLen a < n ∧ n < byteLen a + utf8Len c) ∨ ∃ a b, s = a ++ b ∧ byteLen a = n := by
  induction s generalizing n with
  | nil =>
    cases n with
    | zero => exact .inr (.inr ⟨[], [], rfl, rfl⟩)
    | succ n =>
      left
      show 0 < n + 1
      omega
  | cons x s ih =>
    rw [byteLen_cons]
    by_cases h0 : n = 0
    · exact .inr (.inr ⟨[], _, rfl, h0.symm⟩)
    · by_cases hx : utf8Len x ≤ n
      · rcases ih (n - utf8Len x) with h | ⟨a, c, r, h1, h2, h3⟩ | ⟨a, b, h1, h2⟩
        · left; omega
        · right; left
          refine ⟨x :: a, c, r, by rw [h1]; rfl, ?_, ?_⟩ <;> rw [byteLen_cons] <;> omega
        · right; right
          refine ⟨x :: a, b, by rw [h1]; rfl, ?_⟩
          rw [byteLen_cons]
          omega
      · right; left
        refine ⟨[], x, s, rfl, ?_, ?_⟩
        · show 0 < n
          omega
        · show n < 0 + _
          omega

namespace ParseUtils

theorem asU8_low (c : Char) : asU8 c = low c := rfl

theorem vchar_low (c : Char) : vchar c = true ↔ EscAny c := by
  unfold vchar EscAny
  rw [asU8_low]
  have : low c < 256 := Nat.mod_lt _ (by decide)
  simp only [Bool.or_eq_true, Bool.and_eq_true, beq_iff_eq, decide_eq_true_eq]
  omega

theorem qdtext_low (c : Char) : qdtext (asU8 c) = true ↔ QAny c := by
  unfold qdtext QAny
  rw [asU8_low]
  have : low c < 256 := Nat.mod_lt _ (by decide)
  simp only [Bool.or_eq_true, Bool.and_eq_true, beq_iff_eq, decide_eq_true_eq]
  omega

/-- A character that differs from the ASCII character with the same low bits is wide. -/
theorem wide_of_low {c d : Char} (hd : d.toNat < 128) (h : low c = d.toNat) (hn : c ≠ d) : 2 ≤ utf8Len c := by
  unfold utf8Len
  split
  · next hc =>
    exfalso
    apply hn
    apply char_eq_of_toNat
    unfold low at h
    omega
  · split <;> (try split) <;> omega

theorem not_qany_quote {c : Char} (h : low c = 34) : ¬ QAny c := by
  unfold QAny; omega

theorem not_qany_backslash {c : Char} (h : low c = 92) : ¬ QAny c := by
  unfold QAny; omega

theorem lost_ne {c : Char} (h : Lost c) : c ≠ '\\' ∧ low c ≠ 34 := ⟨h.2, by rw [h.1]; decide⟩

/-- Reading the inside of a quoted string up to the closing quote, or what is taken for it. -/
theorem scan_any {s : Str} (i : Nat) (hi : 1 ≤ i) (bs : List Nat) (hb : ∀ b ∈ bs, b + 2 < i) :
    (∃ e v c rest new, s = e ++ c :: rest ∧ low c = 34 ∧ QuotedAny e v ∧
      scan i bs s = some (i + byteLen e + 1, new ++ bs) ∧
      (∀ b ∈ new, i - 1 ≤ b) ∧
      dropAt (i - 1) new.reverse e = v) ∨
    (scan i bs s = none ∧ ∀ e v c rest, QuotedAny e v → low c = 34 → s ≠ e ++ c :: rest) := by
  induction hn : s.length using Nat.strongRecOn generalizing s i bs with
  | _ n ih =>
    cases s with
    | nil =>
      refine .inr ⟨rfl, ?_⟩
      intro e v c rest _ _ h
      cases e <;> cases h
    | cons c s =>
      have hnp : ¬ (i > 1 ∧ bs.head? = some (i - 2)) := by
        rintro ⟨h1, h2⟩
        cases bs with
        | nil => cases h2
        | cons b bs =>
          have : b = i - 2 := by simpa using h2
          have := hb b (by simp)
          omega
      have hc := utf8Len_pos c
      rw [scan, if_neg hnp]
      by_cases h92 : low c = 92
      · rw [if_pos (show asU8 c = 92 from h92)]
        by_cases hce : c = '\\'
        · subst hce
          have h1 : utf8Len '\\' = 1 := by decide
          rw [h1]
          cases s with
          | nil =>
            refine .inr ⟨rfl, ?_⟩
            intro e v x rest he hx h
            cases he with
            | nil => cases h; revert hx; decide
            | plain hq _ => exact absurd ((List.cons.inj h).1 ▸ hq) (not_qany_backslash rfl)
            | lost hq _ => exact absurd (List.cons.inj h).1.symm hq.2
            | pair _ _ => cases h
          | cons d s =>
            have hpend : i + 1 > 1 ∧ ((i - 1) :: bs).head? = some (i + 1 - 2) := by
              refine ⟨by omega, ?_⟩
              simp
            rw [scan, if_pos hpend]
            have hd := utf8Len_pos d
            by_cases hv : vchar d = true
            · rw [if_pos hv]
              rcases ih s.length (by rw [← hn]; simp; omega) (i + 1 + utf8Len d) (by omega) ((i - 1) :: bs)
                (by
                  intro b hbm
                  rcases List.mem_cons.mp hbm with rfl | hbm
                  · omega
                  · have := hb b hbm; omega) rfl with ⟨e, v, x, rest, new, h1', hx, h2, h3, h4, h5⟩ | ⟨h1', h2⟩
              · refine .inl ⟨'\\' :: d :: e, d :: v, x, rest, new ++ [i - 1], by rw [h1']; rfl, hx,
                  .pair ((vchar_low d).mp hv) h2, ?_, ?_, ?_⟩
                · rw [h3, byteLen_cons, byteLen_cons, h1]
                  simp
                  omega
                · intro b hbm
                  rcases List.mem_append.mp hbm with hbm | hbm
                  · have := h4 b hbm; omega
                  · simp at hbm; omega
                · rw [List.reverse_append, dropAt, if_pos (by simp), h1]
                  have ne : ¬ (List.tail ([i - 1].reverse ++ new.reverse)).head? = some (i - 1 + 1) := by
                    intro hh
                    simp at hh
                    have : i - 1 + 1 ∈ new := by
                      have : new.getLast? = some (i - 1 + 1) := hh
                      exact List.mem_of_getLast? this
                    have := h4 _ this
                    omega
                  rw [dropAt, if_neg ne]
                  have e1 : i - 1 + 1 + utf8Len d = i + 1 + utf8Len d - 1 := by omega
                  rw [e1]
                  show d :: dropAt _ new.reverse e = _
                  rw [h5]
              · refine .inr ⟨h1', ?_⟩
                intro e v x rest he hx h
                cases he with
                | nil => cases h; revert hx; decide
                | plain hq _ => exact absurd ((List.cons.inj h).1 ▸ hq) (not_qany_backslash rfl)
                | lost hq _ => exact absurd (List.cons.inj h).1.symm hq.2
                | pair _ he =>
                  cases h
                  exact h2 _ _ _ _ he hx rfl
            · rw [if_neg hv]
              refine .inr ⟨rfl, ?_⟩
              intro e v x rest he hx h
              cases he with
              | nil => cases h; revert hx; decide
              | plain hq _ => exact absurd ((List.cons.inj h).1 ▸ hq) (not_qany_backslash rfl)
              | lost hq _ => exact absurd (List.cons.inj h).1.symm hq.2
              | pair hq he =>
                cases h
                exact hv ((vchar_low d).mpr hq)
        · have hw : 2 ≤ utf8Len c := wide_of_low (d := '\\') (by decide) h92 hce
          rcases ih s.length (by rw [← hn]; simp) (i + utf8Len c) (by omega) ((i - 1) :: bs)
            (by
              intro b hbm
              rcases List.mem_cons.mp hbm with rfl | hbm
              · omega
              · have := hb b hbm; omega) rfl with ⟨e, v, x, rest, new, h1, hx, h2, h3, h4, h5⟩ | ⟨h1, h2⟩
          · refine .inl ⟨c :: e, v, x, rest, new ++ [i - 1], by rw [h1]; rfl, hx, .lost ⟨h92, hce⟩ h2, ?_, ?_, ?_⟩
            · rw [h3, byteLen_cons]
              simp
              omega
            · intro b hbm
              rcases List.mem_append.mp hbm with hbm | hbm
              · have := h4 b hbm; omega
              · simp at hbm; omega
            · rw [List.reverse_append, dropAt, if_pos (by simp)]
              simp at h5 ⊢
              have e1 : i - 1 + utf8Len c = i + utf8Len c - 1 := by omega
              rw [e1, h5]
          · refine .inr ⟨h1, ?_⟩
            intro e v x rest he hx h
            cases he with
            | nil => cases h; rw [h92] at hx; revert hx; decide
            | plain hq _ => cases h; exact absurd hq (not_qany_backslash h92)
            | lost hq he => cases h; exact h2 _ _ _ _ he hx rfl
            | pair _ _ => cases h; exact hce rfl
      · rw [if_neg (show ¬ asU8 c = 92 from h92)]
        by_cases h34 : low c = 34
        · rw [if_pos (show asU8 c = 34 from h34)]
          exact .inl ⟨[], [], c, s, [], rfl, h34, .nil, rfl, by simp, rfl⟩
        · rw [if_neg (show ¬ asU8 c = 34 from h34)]
          by_cases hq : qdtext (asU8 c) = true
          · rw [if_pos hq]
            rcases ih s.length (by rw [← hn]; simp) (i + utf8Len c) (by omega) bs
              (by intro b hbm; have := hb b hbm; omega) rfl with
              ⟨e, v, x, rest, new, h1, hx, h2, h3, h4, h5⟩ | ⟨h1, h2⟩
            · refine .inl ⟨c :: e, c :: v, x, rest, new, by rw [h1]; rfl, hx,
                .plain ((qdtext_low c).mp hq) h2, ?_, ?_, ?_⟩
              · rw [h3, byteLen_cons]
                simp
                omega
              · intro b hbm
                have := h4 b hbm; omega
              · have ne : ¬ (new.reverse).head? = some (i - 1) := by
                  intro hh
                  simp at hh
                  have := h4 _ (List.mem_of_getLast? hh)
                  omega
                rw [dropAt, if_neg ne]
                have e1 : i - 1 + utf8Len c = i + utf8Len c - 1 := by omega
                rw [e1, h5]
            · refine .inr ⟨h1, ?_⟩
              intro e v x rest he hx h
              cases he with
              | nil => cases h; exact h34 hx
              | plain hq he => cases h; exact h2 _ _ _ _ he hx rfl
              | lost hq _ => cases h; exact h92 hq.1
              | pair _ _ => cases h; exact h92 rfl
          · rw [if_neg hq]
            refine .inr ⟨rfl, ?_⟩
            intro e v x rest he hx h
            cases he with
            | nil => cases h; exact h34 hx
            | plain hx he => cases h; exact hq ((qdtext_low c).mpr hx)
            | lost hq _ => cases h; exact h92 hq.1
            | pair _ _ => cases h; exact h92 rfl

/-- The quoted-string parser on any text. -/
theorem parseQuotedString_any (s : Str) :
    (∃ e v c rest, s = '"' :: (e ++ c :: rest) ∧ QuotedAny e v ∧ low c = 34 ∧
      parseQuotedString s = if c = '"' then .ok (some v, rest) else .panic) ∨
    (parseQuotedString s = .ok (none, s) ∧
      ∀ e v c rest, QuotedAny e v → low c = 34 → s ≠ '"' :: (e ++ c :: rest)) := by
  by_cases hq : ∃ t, s = '"' :: t
  · obtain ⟨t, rfl⟩ := hq
    rcases scan_any (s := t) 1 (Nat.le_refl _) [] (by simp) with ⟨e, v, c, rest, new, h1, hx, h2, h3, h4, h5⟩ | ⟨h1, h2⟩
    · left
      refine ⟨e, v, c, rest, by rw [h1], h2, hx, ?_⟩
      unfold parseQuotedString
      simp only
      rw [h3]
      simp only
      have e1 : 1 + byteLen e + 1 - 1 - 1 = byteLen e := by omega
      rw [e1, h1, splitAtByte_of]
      simp only [Res.bind_ok]
      have hlen : byteLen ('"' :: e) = 1 + byteLen e := by rw [byteLen_cons]; rfl
      by_cases hc : c = '"'
      · subst hc
        rw [if_pos rfl]
        have e2 : '"' :: (e ++ '"' :: rest) = ('"' :: (e ++ ['"'])) ++ rest := by simp
        have e3 : 1 + byteLen e + 1 = byteLen ('"' :: (e ++ ['"'])) := by
          rw [byteLen_cons, byteLen_append, byteLen_cons]
          have : utf8Len '"' = 1 := by decide
          have : byteLen [] = 0 := rfl
          omega
        rw [e2, e3, splitAtByte_of]
        simp only [Res.bind_ok]
        rw [List.append_nil]
        congr 3
        by_cases hn : new = []
        · rw [if_pos hn]
          subst hn
          rw [← h5]
          have : ∀ i (l : Str), dropAt i [] l = l := by
            intro i l
            induction l generalizing i with
            | nil => rfl
            | cons a l ih => rw [dropAt, if_neg (by simp), ih]
          simp [this]
        · rw [if_neg hn]
          exact h5
      · rw [if_neg hc]
        have hw : 2 ≤ utf8Len c := wide_of_low (d := '"') (by decide) hx hc
        have : splitAtByte (1 + byteLen e + 1) (('"' :: e) ++ c :: rest) = .panic :=
          splitAtByte_inside (by omega) (by omega)
        rw [List.cons_append] at this
        rw [this]
        rfl
    · right
      refine ⟨?_, ?_⟩
      · unfold parseQuotedString
        simp only
        rw [h1]
      · intro e v c rest he hx h
        cases h
        exact h2 _ _ _ _ he hx rfl
  · right
    refine ⟨?_, ?_⟩
    · unfold parseQuotedString
      split
      · next t => exact absurd ⟨t, rfl⟩ hq
      · rfl
    · intro e v c rest he _ h
      exact hq ⟨_, h⟩

end ParseUtils

namespace Forwarded

theorem quotedAny_unique {e v : Str} (h : QuotedAny e v) : ∀ {e' v' r r' : Str} {c c' : Char}, QuotedAny e' v' →
    low c = 34 → low c' = 34 → e ++ c :: r = e' ++ c' :: r' → e = e' ∧ v = v' ∧ c = c' ∧ r = r' := by
  induction h with
  | nil =>
    intro e' v' r r' c c' h' hc hc' he
    cases h' with
    | nil => cases he; exact ⟨rfl, rfl, rfl, rfl⟩
    | plain hp _ => exact absurd ((List.cons.inj he).1 ▸ hp) (not_qany_quote hc)
    | lost hp _ => exact absurd hc (lost_ne ((List.cons.inj he).1 ▸ hp)).2
    | pair _ _ => rw [(List.cons.inj he).1] at hc; exact absurd hc (by decide)
  | plain hp _ ih =>
    intro e' v' r r' c c' h' hc hc' he
    cases h' with
    | nil => exact absurd ((List.cons.inj he).1 ▸ hp) (not_qany_quote hc')
    | plain hp' h'' =>
      simp only [List.cons_append, List.cons.injEq] at he
      obtain ⟨rfl, he⟩ := he
      obtain ⟨rfl, rfl, rfl, rfl⟩ := ih h'' hc hc' he
      exact ⟨rfl, rfl, rfl, rfl⟩
    | lost hp' _ => exact absurd ((List.cons.inj he).1 ▸ hp) (not_qany_backslash hp'.1)
    | pair _ _ => exact absurd ((List.cons.inj he).1 ▸ hp) (not_qany_backslash rfl)
  | lost hp _ ih =>
    intro e' v' r r' c c' h' hc hc' he
    cases h' with
    | nil => exact absurd hc' (lost_ne ((List.cons.inj he).1 ▸ hp)).2
    | plain hp' h'' => exact absurd ((List.cons.inj he).1 ▸ hp') (not_qany_backslash hp.1)
    | lost hp' h'' =>
      simp only [List.cons_append, List.cons.injEq] at he
      obtain ⟨rfl, he⟩ := he
      obtain ⟨rfl, rfl, rfl, rfl⟩ := ih h'' hc hc' he
      exact ⟨rfl, rfl, rfl, rfl⟩
    | pair _ _ => exact absurd (List.cons.inj he).1 hp.2
  | pair hp _ ih =>
    intro e' v' r r' c c' h' hc hc' he
    cases h' with
    | nil => rw [← (List.cons.inj he).1] at hc'; exact absurd hc' (by decide)
    | plain hp' h'' => exact absurd ((List.cons.inj he).1 ▸ hp') (not_qany_backslash rfl)
    | lost hp' _ => exact absurd (List.cons.inj he).1.symm hp'.2
    | pair hp' h'' =>
      simp only [List.cons_append, List.cons.injEq] at he
      obtain ⟨_, rfl, he⟩ := he
      obtain ⟨rfl, rfl, rfl, rfl⟩ := ih h'' hc hc' he
      exact ⟨rfl, rfl, rfl, rfl⟩

theorem parseQuotedString_of {e v r : Str} (he : QuotedAny e v) :
    parseQuotedString ('"' :: (e ++ '"' :: r)) = .ok (some v, r) := by
  rcases parseQuotedString_any ('"' :: (e ++ '"' :: r)) with ⟨e', v', c, r', h1, h2, h3, h4⟩ | ⟨_, h⟩
  · simp only [List.cons.injEq, true_and] at h1
    obtain ⟨_, rfl, rfl, rfl⟩ := quotedAny_unique he h2 rfl h3 h1
    rw [h4, if_pos rfl]
  · exact absurd rfl (h e v '"' r he rfl)

theorem parseQuotedString_broken {e v : Str} {c : Char} {r : Str} (he : QuotedAny e v) (hc : Broken c) :
    parseQuotedString ('"' :: (e ++ c :: r)) = .panic := by
  rcases parseQuotedString_any ('"' :: (e ++ c :: r)) with ⟨e', v', c', r', h1, h2, h3, h4⟩ | ⟨_, h⟩
  · simp only [List.cons.injEq, true_and] at h1
    obtain ⟨_, rfl, rfl, rfl⟩ := quotedAny_unique he h2 hc.1 h3 h1
    rw [h4, if_neg hc.2]
  · exact absurd rfl (h e v c r he hc.1)

theorem parseToken_quote (s : Str) : parseToken ('"' :: s) = (none, '"' :: s) := by
  rcases parseToken_cases ('"' :: s) with ⟨t, r', h1, h2, _, _⟩ | ⟨h1, _⟩
  · exfalso
    obtain ⟨hn, hall⟩ := h2
    cases t with
    | nil => exact hn rfl
    | cons c t =>
      simp only [List.cons_append, List.cons.injEq] at h1
      obtain ⟨rfl, _⟩ := h1
      exact not_token_quote _ ⟨by simp, hall⟩
  · exact h1

theorem valueAny_cases (s : Str) :
    (∃ raw v r, s = raw ++ r ∧ ParamAny raw v ∧ (Token raw → ∀ c, r.head? = some c → ¬ TChar c) ∧
      parseValue s = .ok (some v, r)) ∨
    (∃ e v c r, s = '"' :: (e ++ c :: r) ∧ QuotedAny e v ∧ Broken c ∧ parseValue s = .panic) ∨
    (∃ x, parseValue s = .ok (none, x)) := by
  unfold parseValue
  rcases parseToken_cases s with ⟨t, r, h1, h2, h3, h4⟩ | ⟨h1, h2⟩
  · left
    rw [h4]
    exact ⟨t, t, r, h1, .inl ⟨rfl, h2⟩, fun _ => h3, rfl⟩
  · rw [h1]
    rcases parseQuotedString_any s with ⟨e, v, c, r, h3, h4, h5, h6⟩ | ⟨h3, _⟩
    · by_cases hc : c = '"'
      · subst hc
        left
        refine ⟨'"' :: (e ++ ['"']), v, r, by rw [h3]; simp, .inr ⟨e, rfl, h4⟩, ?_, ?_⟩
        · exact fun ht => absurd ht (not_token_quote _)
        · simp only
          rw [h6, if_pos rfl]
      · right; left
        refine ⟨e, v, c, r, h3, h4, ⟨h5, hc⟩, ?_⟩
        simp only
        rw [h6, if_neg hc]
    · right; right
      exact ⟨s, h3⟩

theorem valueAny_of {raw v r : Str} (hp : ParamAny raw v)
    (hr : Token raw → ∀ c, r.head? = some c → ¬ TChar c) : parseValue (raw ++ r) = .ok (some v, r) := by
  unfold parseValue
  rcases hp with ⟨rfl, ht⟩ | ⟨e, rfl, he⟩
  · rw [parseToken_of ht (hr ht)]
  · have e1 : '"' :: (e ++ ['"']) ++ r = '"' :: (e ++ '"' :: r) := by simp
    rw [e1, parseToken_quote]
    exact parseQuotedString_of he

theorem valueAny_broken {e v : Str} {c : Char} {r : Str} (he : QuotedAny e v) (hc : Broken c) :
    parseValue ('"' :: (e ++ c :: r)) = .panic := by
  unfold parseValue
  rw [parseToken_quote]
  exact parseQuotedString_broken he hc

/-! ### Recognising `for` -/

theorem isAscii_token {k : Str} (h : Token k) : isAscii k = true := by
  rw [isAscii_iff]
  intro c hc
  have := Mime.tchar_nat (h.2 c hc)
  omega

theorem startsFor_split {s : Str} (h : StartsFor s) : ∃ a r, s = a ++ r ∧ byteLen a = 4 ∧
    eqIgnoreCase a s!!"for=" = true := by
  obtain ⟨k, r, rfl, hk⟩ := h
  have ht := isAscii_token (isFor_token hk)
  have hl := isFor_length hk
  refine ⟨k ++ ['='], r, by simp, ?_, ?_⟩
  · rw [byteLen_append, byteLen_ascii ht, hl]
    rfl
  · have := (for_take (s := k ++ '=' :: r) (by simp; omega)).mpr ⟨k, r, rfl, hk⟩
    have e : (k ++ '=' :: r).take 4 = k ++ ['='] := by
      match k, hl with
      | [x, y, z], _ => rfl
    rw [e] at this
    exact this

theorem split_startsFor {a r : Str} (h : eqIgnoreCase a s!!"for=" = true) : StartsFor (a ++ r) := by
  have hl : a.length = 4 := by
    unfold eqIgnoreCase at h
    have := congrArg List.length (beq_iff_eq.mp h)
    simpa [lower] using this
  have : (a ++ r).take 4 = a := by rw [← hl]; simp
  rw [← for_take (by simp; omega), this]
  exact h

theorem not_straddles {s : Str} (h : StartsFor s) : ¬ Straddles s := by
  rintro ⟨a, c, r, h1, h2, h3⟩
  obtain ⟨b, t, h4, h5, _⟩ := startsFor_split h
  have p1 := splitAtByte_inside (r := r) h2 h3
  have p2 := splitAtByte_of b t
  rw [h5, ← h4, h1, p1] at p2
  cases p2

/-- How a text begins. -/
theorem beginning (s : Str) : StartsFor s ∨ (¬ StartsFor s ∧ byteLen s < 4) ∨ Straddles s ∨
    (¬ StartsFor s ∧ ¬ Straddles s ∧ ∃ a r, s = a ++ r ∧ byteLen a = 4 ∧ eqIgnoreCase a s!!"for=" = false) := by
  by_cases hS : StartsFor s
  · exact .inl hS
  rcases index_cases 4 s with h | h | ⟨a, b, h1, h2⟩
  · exact .inr (.inl ⟨hS, h⟩)
  · exact .inr (.inr (.inl h))
  · right; right; right
    refine ⟨hS, ?_, a, b, h1, h2, ?_⟩
    · rintro ⟨x, c, r, h3, h4, h5⟩
      have p1 := splitAtByte_inside (r := r) h4 h5
      have p2 := splitAtByte_of a b
      rw [h2, ← h1, h3, p1] at p2
      cases p2
    · rw [Bool.eq_false_iff]
      intro e
      exact hS (h1 ▸ split_startsFor e)

theorem straddles_startsWith {s : Str} (h : Straddles s) :
    startsWithIgnoreCase s!!"for=" s = .panic ∧ matchIgnoreCase s!!"for=" s = .panic := by
  obtain ⟨a, c, r, rfl, h2, h3⟩ := h
  unfold startsWithIgnoreCase matchIgnoreCase
  rw [byteLen_for, if_pos (by rw [byteLen_append, byteLen_cons]; omega), splitAtByte_inside h2 h3]
  exact ⟨rfl, rfl⟩

theorem startsAny_pos {s : Str} (h : StartsFor s) : startsWithIgnoreCase s!!"for=" s = .ok true := by
  obtain ⟨a, r, rfl, h2, h3⟩ := startsFor_split h
  unfold startsWithIgnoreCase
  have := splitAtByte_of a r
  rw [h2] at this
  rw [byteLen_for, if_pos (by rw [byteLen_append]; omega), this]
  simp only [Res.map_ok]
  rw [h3]

theorem startsAny_neg {s : Str} (h : ¬ StartsFor s) (hs : ¬ Straddles s) :
    startsWithIgnoreCase s!!"for=" s = .ok false := by
  unfold startsWithIgnoreCase
  rcases beginning s with hS | ⟨_, hl⟩ | hS | ⟨_, _, a, r, rfl, h2, h3⟩
  · exact absurd hS h
  · rw [byteLen_for, if_neg (by omega)]
  · exact absurd hS hs
  · have := splitAtByte_of a r
    rw [h2] at this
    rw [byteLen_for, if_pos (by rw [byteLen_append]; omega), this]
    simp only [Res.map_ok]
    rw [h3]

theorem matchAny_for {k r : Str} (h : IsFor k) :
    matchIgnoreCase s!!"for=" (k ++ '=' :: r) = .ok (true, r) := by
  have hl := isFor_length h
  have e1 : k ++ '=' :: r = (k ++ ['=']) ++ r := by simp
  have e2 : byteLen (k ++ ['=']) = 4 := by
    rw [byteLen_append, byteLen_ascii (isAscii_token (isFor_token h)), hl]
    rfl
  have e3 : eqIgnoreCase (k ++ ['=']) s!!"for=" = true := by
    have := (for_take (s := k ++ ['=']) (by simp; omega)).mpr ⟨k, [], rfl, h⟩
    have e : (k ++ ['=']).take 4 = k ++ ['='] := by
      match k, hl with
      | [x, y, z], _ => rfl
    rw [e] at this
    exact this
  unfold matchIgnoreCase
  have := splitAtByte_of (k ++ ['=']) r
  rw [e2] at this
  rw [byteLen_for, e1, this]
  simp only [Res.map_ok]
  rw [if_pos e3]

open Classical in
theorem matchAny_other {s : Str} (h : ¬ StartsFor s) :
    matchIgnoreCase s!!"for=" s = if byteLen s < 4 ∨ Straddles s then .panic else .ok (false, s) := by
  rcases beginning s with hS | ⟨_, hl⟩ | hS | ⟨_, hs, a, r, rfl, h2, h3⟩
  · exact absurd hS h
  · rw [if_pos (.inl hl)]
    unfold matchIgnoreCase
    rw [byteLen_for, splitAtByte_past hl]
    rfl
  · rw [if_pos (.inr hS)]
    exact (straddles_startsWith hS).2
  · have := splitAtByte_of a r
    rw [h2] at this
    rw [if_neg]
    · unfold matchIgnoreCase
      rw [byteLen_for, this]
      simp only [Res.map_ok]
      rw [if_neg (by rw [h3]; decide)]
    · rintro (h | h)
      · rw [byteLen_append] at h; omega
      · exact hs h

/-! ### The loop -/

open Classical in
/-- What happens after a `for` value. -/
noncomputable def afterForAny (f : Forwarded) (r : Str) : Res Forwarded :=
  match r with
  | ',' :: r =>
    if StartsFor (trimStart r) then parseLoop f (trimStart r)
    else if byteLen (trimStart r) < 4 ∨ Straddles (trimStart r) then .panic else .err 500
  | ';' :: r => parseLoop f r
  | [] => .ok f
  | _ => .err 500

theorem loopAny_eq {f : Forwarded} {s : Str} (h : StartsFor s) :
    parseLoop f s = (parseFor f s).bind fun p => parseLoop p.1 p.2 := by
  conv => lhs; unfold parseLoop
  have hl := startsFor_length h
  rw [if_neg (by rintro rfl; simp at hl), startsAny_pos h]
  simp only
  cases hp : parseFor f s <;> rfl

theorem loopAny_straddles {f : Forwarded} {s : Str} (h : Straddles s) : parseLoop f s = .panic := by
  unfold parseLoop
  rw [if_neg, (straddles_startsWith h).1]
  rintro rfl
  obtain ⟨a, c, r, h1, _⟩ := h
  simp at h1

theorem loopAny_for {f : Forwarded} {k r : Str} (h : IsFor k) :
    parseLoop f (k ++ '=' :: r) = (parseValue r).bind fun
      | (none, _) => .err 500
      | (some v, r2) => afterForAny (push f v) r2 := by
  rw [loopAny_eq ⟨k, r, rfl, h⟩]
  rw [parseFor_eq]
  rw [matchAny_for h]
  simp only [Res.bind_ok]
  rcases valueAny_cases r with ⟨raw, v, r2, h1, _, _, h4⟩ | ⟨_, _, _, _, _, _, _, h4⟩ | ⟨x, h4⟩
  · rw [h4]
    simp only [Res.bind_ok]
    clear h4 h1
    unfold afterForAny
    split
    · next r3 _ =>
      simp only
      by_cases hS : StartsFor (trimStart r3)
      · rw [if_pos hS, loopAny_eq hS]
      · rw [if_neg hS]
        rw [parseFor_eq, matchAny_other hS]
        by_cases hl : byteLen (trimStart r3) < 4 ∨ Straddles (trimStart r3)
        · rw [if_pos hl, if_pos hl]; rfl
        · rw [if_neg hl, if_neg hl]; rfl
    · rfl
    · show parseLoop _ [] = _
      rw [parseLoop_nil]
    · next a b c =>
      split
      · exact (a _ rfl).elim
      · exact (b _ rfl).elim
      · exact (c rfl).elim
      · rfl
  · rw [h4]
    rfl
  · rw [h4]
    rfl

theorem loopAny_pair {f : Forwarded} {s : Str} (h : ¬ StartsFor s) (hs : ¬ Straddles s) (hn : s ≠ []) :
    parseLoop f s = (parsePair f s).bind fun p => parseLoop p.1 p.2 := by
  conv => lhs; unfold parseLoop
  rw [if_neg hn, startsAny_neg h hs]
  simp only
  cases hp : parsePair f s <;> rfl

theorem equals_head {s : Str} : ∀ c, ('=' :: s).head? = some c → ¬ TChar c := by
  intro c hc
  cases hc
  rw [← Mime.isToken_iff]
  decide

theorem pairAny_of {f : Forwarded} {k raw v r : Str} (hk : Token k) (hp : ParamAny raw v)
    (hr : Token raw → ∀ c, r.head? = some c → ¬ TChar c) :
    parsePair f (k ++ '=' :: (raw ++ r)) = (store f k v).bind fun f => .ok (f, stripSemi r) := by
  unfold parsePair
  rw [parseToken_of hk equals_head]
  simp only
  rw [valueAny_of hp hr]
  rfl

theorem pairAny_broken {f : Forwarded} {k e v : Str} {c : Char} {r : Str} (hk : Token k) (he : QuotedAny e v)
    (hc : Broken c) : parsePair f (k ++ '=' :: '"' :: (e ++ c :: r)) = .panic := by
  unfold parsePair
  rw [parseToken_of hk equals_head]
  simp only
  rw [valueAny_broken he hc]
  rfl

theorem pairAny_cases {f : Forwarded} {s : Str} :
    (∃ k raw v r, s = k ++ '=' :: (raw ++ r) ∧ Token k ∧ ParamAny raw v ∧
      (Token raw → ∀ c, r.head? = some c → ¬ TChar c)) ∨
    (∃ k e v c r, s = k ++ '=' :: '"' :: (e ++ c :: r) ∧ Token k ∧ QuotedAny e v ∧ Broken c) ∨
    parsePair f s = .err 500 := by
  unfold parsePair
  rcases parseToken_cases s with ⟨t, r, h1, h2, h3, h4⟩ | ⟨h1, h2⟩
  · rw [h4]
    cases r with
    | nil => exact .inr (.inr rfl)
    | cons c r =>
      by_cases hc : c = '='
      · subst hc
        rcases valueAny_cases r with ⟨raw, v, r2, h5, h6, h7, h8⟩ | ⟨e, v, c, r2, h5, h6, h7, _⟩ | ⟨x, h5⟩
        · left
          exact ⟨t, raw, v, r2, by rw [h1, h5], h2, h6, h7⟩
        · right; left
          exact ⟨t, e, v, c, r2, by rw [h1, h5], h2, h6, h7⟩
        · right; right
          simp only
          rw [h5]
          rfl
      · right; right
        split
        · next h => cases h; exact absurd rfl hc
        · rfl
  · right; right
    rw [h1]

theorem loopAny_other {f : Forwarded} {k raw v r : Str} (hs : ¬ Straddles (k ++ '=' :: (raw ++ r)))
    (hk : Token k) (hf : ¬ IsFor k) (hp : ParamAny raw v) (hr : Token raw → ∀ c, r.head? = some c → ¬ TChar c) :
    parseLoop f (k ++ '=' :: (raw ++ r)) = (store f k v).bind fun f => parseLoop f (stripSemi r) := by
  rw [loopAny_pair (not_startsFor hk hf) hs (by simp), pairAny_of hk hp hr]
  cases store f k v <;> rfl

theorem loopAny_for_of {f : Forwarded} {k raw v r : Str}
    (hf : IsFor k) (hp : ParamAny raw v) (hr : Token raw → ∀ c, r.head? = some c → ¬ TChar c) :
    parseLoop f (k ++ '=' :: (raw ++ r)) = afterForAny (push f v) r := by
  rw [loopAny_for hf, valueAny_of hp hr]
  rfl

theorem loopAny_quote {f : Forwarded} {k e v : Str} {c : Char} {r : Str} (hk : Token k) (he : QuotedAny e v)
    (hc : Broken c) : parseLoop f (k ++ '=' :: '"' :: (e ++ c :: r)) = .panic := by
  by_cases hf : IsFor k
  · rw [loopAny_for hf, valueAny_broken he hc]
    rfl
  · by_cases hs : Straddles (k ++ '=' :: '"' :: (e ++ c :: r))
    · exact loopAny_straddles hs
    · rw [loopAny_pair (not_startsFor hk hf) hs (by simp), pairAny_broken hk he hc]
      rfl

theorem anyText_startsFor {s : Str} {k v : Str} {ps : List (Str × Str)} (h : ForwardedAny s ((k, v) :: ps))
    (hk : IsFor k) : StartsFor s := by
  cases h with
  | pair _ hn _ _ _ => exact absurd hk hn
  | adjacent _ hn _ _ _ _ => exact absurd hk hn
  | last _ _ => exact ⟨_, _, rfl, hk⟩
  | semi _ _ _ => exact ⟨_, _, rfl, hk⟩
  | comma _ _ _ _ _ => exact ⟨_, _, rfl, hk⟩

theorem anyText_head {s : Str} {ps : List (Str × Str)} (h : ForwardedAny s ps) :
    s = [] ∨ ∃ c t, s = c :: t ∧ TChar c := by
  cases h with
  | nil => exact .inl rfl
  | pair hk _ _ _ _ => exact .inr (token_head hk)
  | adjacent hk _ _ _ _ _ => exact .inr (token_head hk)
  | last hk _ => exact .inr (token_head (isFor_token hk))
  | semi hk _ _ => exact .inr (token_head (isFor_token hk))
  | comma hk _ _ _ _ => exact .inr (token_head (isFor_token hk))

/-- A legal text is read as the effect of its parameters. -/
theorem loopAny_text {s : Str} {ps : List (Str × Str)} (h : ForwardedAny s ps) :
    ∀ {f : Forwarded}, parseLoop f s = runPairs f ps := by
  induction h with
  | nil => intro f; rw [parseLoop_nil]; rfl
  | pair hk hf hp hs _ ih =>
    intro f
    rw [loopAny_other hs hk hf hp semi_head, runPairs_other hf, stripSemi_semi]
    congr 1
    funext f'
    exact ih
  | adjacent hk hf hp hr hs hrest ih =>
    intro f
    rename_i rest _
    have hne : ∀ c, rest.head? = some c → c ≠ ';' := by
      intro c hc e
      subst e
      rcases anyText_head hrest with e | ⟨d, t, e, hd⟩
      · rw [e] at hc; cases hc
      · rw [e] at hc; cases hc
        exact sep_not_tchar _ (by simp) hd
    rw [loopAny_other hs hk hf hp, runPairs_other hf, stripSemi_other hne]
    · congr 1
      funext f'
      exact ih
    · rcases hr with rfl | hr
      · intro _ c hc; cases hc
      · exact fun ht => absurd ht hr
  | last hk hp =>
    intro f
    rename_i k raw v
    have := loopAny_for_of (f := f) (r := []) hk hp (by
      intro _ c hc; cases hc)
    rw [List.append_nil] at this
    rw [this, runPairs_for hk]
    rfl
  | semi hk hp _ ih =>
    intro f
    rw [loopAny_for_of hk hp semi_head, runPairs_for hk]
    exact ih
  | comma hk hp hw hk' hrest ih =>
    intro f
    have hS := anyText_startsFor hrest hk'
    rw [loopAny_for_of hk hp comma_head, runPairs_for hk]
    unfold afterForAny
    simp only
    rw [trimStart_startsFor hw hS, if_pos hS]
    exact ih

/-- A text that breaks makes the parser panic, unless it has already failed. -/
theorem loopAny_breaks {s : Str} {ps : List (Str × Str)} (h : Breaks s ps) :
    ∀ {f : Forwarded}, parseLoop f s = (runPairs f ps).bind fun _ => .panic := by
  induction h with
  | straddle h => intro f; rw [loopAny_straddles h]; rfl
  | quote hk he hc => intro f; rw [loopAny_quote hk he hc]; rfl
  | here hk hp hw hh hl =>
    intro f
    rw [loopAny_for_of hk hp comma_head, runPairs_for hk]
    unfold afterForAny
    simp only
    rw [trimStart_ws_append hw, trimStart_of_head hh, if_neg, if_pos hl]
    · rfl
    · intro hS
      rcases hl with hl | hl
      · obtain ⟨a, r, h1, h2, _⟩ := startsFor_split hS
        rw [h1, byteLen_append] at hl
        omega
      · exact not_straddles hS hl
  | pair hk hf hp hs _ ih =>
    intro f
    rw [loopAny_other hs hk hf hp semi_head, runPairs_other hf, stripSemi_semi]
    cases store f _ _ with
    | ok f' => exact ih
    | err _ => rfl
    | panic => rfl
  | adjacent hk hf hp hr hne hs _ ih =>
    intro f
    rw [loopAny_other hs hk hf hp hr, runPairs_other hf, stripSemi_other hne]
    cases store f _ _ with
    | ok f' => exact ih
    | err _ => rfl
    | panic => rfl
  | semi hk hp _ ih =>
    intro f
    rw [loopAny_for_of hk hp semi_head, runPairs_for hk]
    exact ih
  | comma hk hp hw hS _ ih =>
    intro f
    have hS : StartsFor _ := hS
    rw [loopAny_for_of hk hp comma_head, runPairs_for hk]
    unfold afterForAny
    simp only
    rw [trimStart_startsFor hw hS, if_pos hS]
    exact ih

theorem anyText_first_for {s : Str} {ps : List (Str × Str)} (h : ForwardedAny s ps) (hS : StartsFor s) :
    ∃ k v ps', ps = (k, v) :: ps' ∧ IsFor k := by
  cases h with
  | nil => have := startsFor_length hS; simp at this
  | pair hk hn _ _ _ => exact absurd hS (not_startsFor hk hn)
  | adjacent hk hn _ _ _ _ => exact absurd hS (not_startsFor hk hn)
  | last hk _ => exact ⟨_, _, _, rfl, hk⟩
  | semi hk _ _ => exact ⟨_, _, _, rfl, hk⟩
  | comma hk _ _ _ _ => exact ⟨_, _, _, rfl, hk⟩

/-- Every text is legal, or breaks, or is refused. -/
theorem loopAny_cases (s : Str) (f : Forwarded) :
    (∃ ps, ForwardedAny s ps) ∨ (∃ ps, Breaks s ps) ∨ parseLoop f s = .err 500 := by
  induction hn : s.length using Nat.strongRecOn generalizing s f with
  | _ n ih =>
    by_cases he : s = []
    · subst he; exact .inl ⟨[], .nil⟩
    by_cases hs : Straddles s
    · exact .inr (.inl ⟨[], .straddle hs⟩)
    by_cases hS : StartsFor s
    · obtain ⟨k, r, rfl, hk⟩ := hS
      rcases valueAny_cases r with ⟨raw, v, r2, h1, h2, h3, h4⟩ | ⟨e, v, c, r2, h1, h2, h3, _⟩ | ⟨x, h4⟩
      · subst h1
        rw [loopAny_for hk, h4]
        simp only [Res.bind_ok]
        unfold afterForAny
        split
        · next r3 =>
          obtain ⟨w, hw1, hw2⟩ := trimStart_suffix r3
          have hlen : (trimStart r3).length ≤ r3.length := by
            conv => rhs; rw [hw1]
            simp
          by_cases hS : StartsFor (trimStart r3)
          · rw [if_pos hS]
            rcases ih (trimStart r3).length (by rw [← hn]; simp; omega) (trimStart r3) (push f v) rfl with
              ⟨ps, h⟩ | ⟨ps, h⟩ | h
            · left
              obtain ⟨k', v', ps', rfl, hk'⟩ := anyText_first_for h hS
              refine ⟨(k, v) :: (k', v') :: ps', ?_⟩
              rw [hw1]
              exact .comma hk h2 hw2 hk' h
            · right; left
              refine ⟨(k, v) :: ps, ?_⟩
              rw [hw1]
              exact .comma hk h2 hw2 hS h
            · exact .inr (.inr h)
          · rw [if_neg hS]
            by_cases hl : byteLen (trimStart r3) < 4 ∨ Straddles (trimStart r3)
            · right; left
              refine ⟨[(k, v)], ?_⟩
              rw [hw1]
              exact .here hk h2 hw2 trimStart_head hl
            · rw [if_neg hl]
              exact .inr (.inr rfl)
        · next r3 =>
          rcases ih r3.length (by rw [← hn]; simp; omega) r3 (push f v) rfl with ⟨ps, h⟩ | ⟨ps, h⟩ | h
          · exact .inl ⟨_, .semi hk h2 h⟩
          · exact .inr (.inl ⟨_, .semi hk h2 h⟩)
          · exact .inr (.inr h)
        · left
          rw [List.append_nil]
          exact ⟨_, .last hk h2⟩
        · exact .inr (.inr rfl)
      · subst h1
        exact .inr (.inl ⟨[], .quote (isFor_token hk) h2 h3⟩)
      · rw [loopAny_for hk, h4]
        exact .inr (.inr rfl)
    · rcases pairAny_cases (f := f) (s := s) with ⟨k, raw, v, r, rfl, h3, h4, h5⟩ | ⟨k, e, v, c, r, rfl, h3, h4, h5⟩ | h
      · have hf : ¬ IsFor k := fun hk => hS ⟨k, _, rfl, hk⟩
        rw [loopAny_other hs h3 hf h4 h5]
        rcases store_err (f := f) (k := k) (v := v) with ⟨f', hst⟩ | hst
        · rw [hst]
          simp only [Res.bind_ok]
          by_cases hsemi : ∃ r', r = ';' :: r'
          · obtain ⟨r', rfl⟩ := hsemi
            rw [stripSemi_semi]
            rcases ih r'.length (by rw [← hn]; simp; omega) r' f' rfl with ⟨ps, h⟩ | ⟨ps, h⟩ | h
            · exact .inl ⟨_, .pair h3 hf h4 hs h⟩
            · exact .inr (.inl ⟨_, .pair h3 hf h4 hs h⟩)
            · exact .inr (.inr h)
          · have hne : ∀ c, r.head? = some c → c ≠ ';' := by
              intro c hc e
              subst e
              cases r with
              | nil => cases hc
              | cons d r => cases hc; exact hsemi ⟨r, rfl⟩
            rw [stripSemi_other hne]
            rcases ih r.length (by rw [← hn]; simp; omega) r f' rfl with ⟨ps, h⟩ | ⟨ps, h⟩ | h
            · left
              refine ⟨_, .adjacent h3 hf h4 ?_ hs h⟩
              rcases anyText_head h with e | ⟨c, t, e, hc⟩
              · exact .inl e
              · right
                intro ht
                exact h5 ht c (by rw [e]; rfl) hc
            · exact .inr (.inl ⟨_, .adjacent h3 hf h4 h5 hne hs h⟩)
            · exact .inr (.inr h)
        · rw [hst]
          exact .inr (.inr rfl)
      · exact .inr (.inl ⟨[], .quote h3 h4 h5⟩)
      · rw [loopAny_pair hS hs he, h]
        exact .inr (.inr rfl)

end Forwarded
end HT
