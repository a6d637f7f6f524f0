import Verif.Spec.Forwarded
import Verif.Lemmas.Mime
import Verif.Lemmas.Lists

/-! The building blocks of the `Forwarded` parser on ASCII text. -/

namespace HT

open Spec ParseUtils

namespace ParseUtils

theorem tchar_eq (c : Char) : tchar c = Mime.isToken c := by
  unfold tchar Mime.isToken
  rw [Bool.eq_iff_iff]
  simp only [Bool.or_eq_true]
  tauto

theorem tchar_iff (c : Char) : tchar c = true ↔ TChar c := by rw [tchar_eq, Mime.isToken_iff]

theorem asU8_ascii {c : Char} (h : isAsciiC c = true) : asU8 c = c.toNat := by
  unfold isAsciiC at h
  simp at h
  unfold asU8
  omega

theorem vchar_iff {c : Char} (h : isAsciiC c = true) : vchar c = true ↔ Escapable c := by
  unfold vchar Escapable
  rw [asU8_ascii h]
  unfold isAsciiC at h
  simp at h
  have : c = '\t' ↔ c.toNat = 9 := ⟨fun e => by rw [e]; rfl, fun e => char_eq_of_toNat (by rw [e]; rfl)⟩
  rw [this]
  simp only [Bool.or_eq_true, Bool.and_eq_true, beq_iff_eq, decide_eq_true_eq]
  omega

theorem qdtext_iff {c : Char} (h : isAsciiC c = true) : qdtext (asU8 c) = true ↔ QdText c := by
  unfold qdtext QdText
  rw [asU8_ascii h]
  unfold isAsciiC at h
  simp at h
  have e1 : c = '\t' ↔ c.toNat = 9 := ⟨fun e => by rw [e]; rfl, fun e => char_eq_of_toNat (by rw [e]; rfl)⟩
  have e2 : c = ' ' ↔ c.toNat = 32 := ⟨fun e => by rw [e]; rfl, fun e => char_eq_of_toNat (by rw [e]; rfl)⟩
  have e3 : c = '\\' ↔ c.toNat = 92 := ⟨fun e => by rw [e]; rfl, fun e => char_eq_of_toNat (by rw [e]; rfl)⟩
  rw [e1, e2, Ne, e3]
  simp only [Bool.or_eq_true, Bool.and_eq_true, beq_iff_eq, decide_eq_true_eq]
  omega

theorem asU8_eq_iff {c : Char} (h : isAsciiC c = true) {d : Char} {n : Nat} (hd : d.toNat = n) :
    asU8 c = n ↔ c = d := by
  rw [asU8_ascii h]
  exact ⟨fun e => char_eq_of_toNat (by rw [e, hd]), fun e => by rw [e, hd]⟩

/-- Reading the inside of a quoted string up to the closing quote. -/
theorem scan_ascii {s : Str} (hs : isAscii s = true) (i : Nat) (hi : 1 ≤ i) (bs : List Nat)
    (hb : ∀ b ∈ bs, b + 2 < i) :
    (∃ e v rest new, s = e ++ '"' :: rest ∧ QuotedText e v ∧
      scan i bs s = some (i + e.length + 1, new ++ bs) ∧
      (∀ b ∈ new, i - 1 ≤ b) ∧
      dropAt (i - 1) new.reverse e = v) ∨
    (scan i bs s = none ∧ ∀ e v rest, QuotedText e v → s ≠ e ++ '"' :: rest) := by
  induction hn : s.length using Nat.strongRecOn generalizing s i bs with
  | _ n ih =>
    cases s with
    | nil =>
      refine .inr ⟨rfl, ?_⟩
      intro e v rest _ h
      cases e <;> cases h
    | cons c s =>
      rw [isAscii_cons, Bool.and_eq_true] at hs
      have hnp : ¬ (i > 1 ∧ bs.head? = some (i - 2)) := by
        rintro ⟨h1, h2⟩
        cases bs with
        | nil => cases h2
        | cons b bs =>
          have : b = i - 2 := by simpa using h2
          have := hb b (by simp)
          omega
      have hc := utf8Len_ascii hs.1
      rw [scan, if_neg hnp]
      by_cases h92 : asU8 c = 92
      · have hce : c = '\\' := (asU8_eq_iff hs.1 rfl).mp h92
        subst hce
        rw [if_pos h92, hc]
        cases s with
        | nil =>
          refine .inr ⟨rfl, ?_⟩
          intro e v rest he h
          cases he with
          | nil => cases h
          | plain hq _ =>
            simp only [List.cons_append, List.cons.injEq] at h
            obtain ⟨rfl, _⟩ := h
            rcases hq with h | h | h | h <;> revert h <;> decide
          | pair _ _ => cases h
        | cons d s =>
          have hs2 := hs.2
          rw [isAscii_cons, Bool.and_eq_true] at hs2
          have hpend : i + 1 > 1 ∧ ((i - 1) :: bs).head? = some (i + 1 - 2) := by
            refine ⟨by omega, ?_⟩
            simp
          rw [scan, if_pos hpend, utf8Len_ascii hs2.1]
          by_cases hv : vchar d = true
          · rw [if_pos hv]
            rcases ih s.length (by rw [← hn]; simp; omega) hs2.2 (i + 1 + 1) (by omega) ((i - 1) :: bs)
              (by
                intro b hbm
                rcases List.mem_cons.mp hbm with rfl | hbm
                · omega
                · have := hb b hbm; omega) rfl with ⟨e, v, rest, new, h1, h2, h3, h4, h5⟩ | ⟨h1, h2⟩
            · refine .inl ⟨'\\' :: d :: e, d :: v, rest, new ++ [i - 1], by rw [h1]; rfl,
                .pair ((vchar_iff hs2.1).mp hv) h2, ?_, ?_, ?_⟩
              · rw [h3]
                simp
                omega
              · intro b hbm
                rcases List.mem_append.mp hbm with hbm | hbm
                · have := h4 b hbm; omega
                · simp at hbm; omega
              · rw [List.reverse_append, dropAt, if_pos (by simp), hc]
                have ne : ¬ (List.tail ([i - 1].reverse ++ new.reverse)).head? = some (i - 1 + 1) := by
                  intro hh
                  simp at hh
                  have : i - 1 + 1 ∈ new := by
                    have : new.getLast? = some (i - 1 + 1) := hh
                    exact List.mem_of_getLast? this
                  have := h4 _ this
                  omega
                rw [dropAt, if_neg ne, utf8Len_ascii hs2.1]
                simp at h5 ⊢
                have e1 : i - 1 + 1 + 1 = i + 1 := by omega
                rw [e1, h5]
            · refine .inr ⟨h1, ?_⟩
              intro e v rest he h
              cases he with
              | nil => cases h
              | plain hq _ =>
                simp only [List.cons_append, List.cons.injEq] at h
                obtain ⟨rfl, _⟩ := h
                rcases hq with h | h | h | h <;> revert h <;> decide
              | pair _ he =>
                cases h
                exact h2 _ _ _ he rfl
          · rw [if_neg hv]
            refine .inr ⟨rfl, ?_⟩
            intro e v rest he h
            cases he with
            | nil => cases h
            | plain hq _ =>
              simp only [List.cons_append, List.cons.injEq] at h
              obtain ⟨rfl, _⟩ := h
              rcases hq with h | h | h | h <;> revert h <;> decide
            | pair hx he =>
              cases h
              exact hv ((vchar_iff hs2.1).mpr hx)
      · rw [if_neg h92]
        by_cases h34 : asU8 c = 34
        · have hce : c = '"' := (asU8_eq_iff hs.1 rfl).mp h34
          subst hce
          rw [if_pos h34]
          exact .inl ⟨[], [], s, [], rfl, .nil, rfl, by simp, rfl⟩
        · rw [if_neg h34]
          by_cases hq : qdtext (asU8 c) = true
          · rw [if_pos hq, hc]
            rcases ih s.length (by rw [← hn]; simp) hs.2 (i + 1) (by omega) bs
              (by intro b hbm; have := hb b hbm; omega) rfl with ⟨e, v, rest, new, h1, h2, h3, h4, h5⟩ | ⟨h1, h2⟩
            · refine .inl ⟨c :: e, c :: v, rest, new, by rw [h1]; rfl, .plain ((qdtext_iff hs.1).mp hq) h2,
                ?_, ?_, ?_⟩
              · rw [h3]
                simp
                omega
              · intro b hbm
                have := h4 b hbm; omega
              · have ne : ¬ (new.reverse).head? = some (i - 1) := by
                  intro hh
                  simp at hh
                  have := h4 _ (List.mem_of_getLast? hh)
                  omega
                rw [dropAt, if_neg ne, hc]
                have e1 : i - 1 + 1 = i + 1 - 1 := by omega
                rw [e1, h5]
            · refine .inr ⟨h1, ?_⟩
              intro e v rest he h
              cases he with
              | nil =>
                cases h
                exact h34 rfl
              | plain hq he =>
                cases h
                exact h2 _ _ _ he rfl
              | pair _ _ =>
                cases h
                exact h92 rfl
          · rw [if_neg hq]
            refine .inr ⟨rfl, ?_⟩
            intro e v rest he h
            cases he with
            | nil =>
              cases h
              exact h34 rfl
            | plain hx he =>
              cases h
              exact hq ((qdtext_iff hs.1).mpr hx)
            | pair _ _ =>
              cases h
              exact h92 rfl

/-- The quoted-string parser on ASCII text. -/
theorem parseQuotedString_ascii {s : Str} (hs : isAscii s = true) :
    (∃ e v rest, s = '"' :: (e ++ '"' :: rest) ∧ QuotedText e v ∧
      parseQuotedString s = .ok (some v, rest)) ∨
    (parseQuotedString s = .ok (none, s) ∧ ∀ e v rest, QuotedText e v → s ≠ '"' :: (e ++ '"' :: rest)) := by
  by_cases hq : ∃ t, s = '"' :: t
  · obtain ⟨t, rfl⟩ := hq
    have hs2 := hs
    rw [isAscii_cons, Bool.and_eq_true] at hs2
    rcases scan_ascii hs2.2 1 (Nat.le_refl _) [] (by simp) with ⟨e, v, rest, new, h1, h2, h3, h4, h5⟩ | ⟨h1, h2⟩
    · left
      refine ⟨e, v, rest, by rw [h1], h2, ?_⟩
      unfold parseQuotedString
      simp only
      rw [h3]
      simp only
      have e1 : 1 + e.length + 1 - 1 - 1 = e.length := by omega
      rw [e1, splitAtByte_ascii hs2.2 (by rw [h1]; simp), splitAtByte_ascii hs (by rw [h1]; simp; omega)]
      simp only [Res.bind_ok]
      have e2 : List.take e.length t = e := by rw [h1]; simp
      have e3 : List.drop (1 + e.length + 1) ('"' :: t) = rest := by
        rw [h1]
        have : 1 + e.length + 1 = (e.length + 1) + 1 := by omega
        rw [this, List.drop_succ_cons]
        have : e ++ '"' :: rest = (e ++ ['"']) ++ rest := by simp
        rw [this, List.drop_left' (by simp)]
      rw [e2, e3, List.append_nil]
      congr 3
      by_cases hn : new = []
      · rw [if_pos hn]
        subst hn
        rw [← h5]
        have : ∀ i (l : Str), dropAt i [] l = l := by
          intro i l
          induction l generalizing i with
          | nil => rfl
          | cons a l ih => rw [dropAt, if_neg (by simp), ih]
        simp [this]
      · rw [if_neg hn]
        exact h5
    · right
      refine ⟨?_, ?_⟩
      · unfold parseQuotedString
        simp only
        rw [h1]
      · intro e v rest he h
        cases h
        exact h2 _ _ _ he rfl
  · right
    refine ⟨?_, ?_⟩
    · unfold parseQuotedString
      split
      · next t => exact absurd ⟨t, rfl⟩ hq
      · rfl
    · intro e v rest he h
      exact hq ⟨_, h⟩

/-- The token parser takes the longest run of token characters. -/
theorem parseToken_cases (s : Str) :
    (∃ t r, s = t ++ r ∧ Token t ∧ (∀ c, r.head? = some c → ¬ TChar c) ∧ parseToken s = (some t, r)) ∨
    (parseToken s = (none, s) ∧ ∀ c, s.head? = some c → ¬ TChar c) := by
  unfold parseToken
  by_cases h : s.takeWhile tchar = []
  · right
    rw [if_pos h]
    refine ⟨rfl, ?_⟩
    intro c hc ht
    cases s with
    | nil => cases hc
    | cons d s =>
      cases hc
      rw [List.takeWhile_cons, if_pos ((tchar_iff _).mpr ht)] at h
      cases h
  · left
    rw [if_neg h]
    refine ⟨_, _, List.takeWhile_append_dropWhile.symm, ⟨h, ?_⟩, ?_, rfl⟩
    · intro c hc
      have := List.all_takeWhile (p := tchar) (l := s)
      rw [List.all_eq_true] at this
      exact (tchar_iff c).mp (this c hc)
    · intro c hc ht
      have := List.head?_dropWhile_not tchar s
      rw [hc] at this
      simp at this
      rw [(tchar_iff c).mpr ht] at this
      cases this

theorem parseToken_of {t r : Str} (ht : Token t) (hr : ∀ c, r.head? = some c → ¬ TChar c) :
    parseToken (t ++ r) = (some t, r) := by
  rcases parseToken_cases (t ++ r) with ⟨t', r', h1, h2, h3, h4⟩ | ⟨_, h⟩
  · rw [h4]
    have : ∀ (t r t' r' : Str), (∀ c ∈ t, TChar c) → (∀ c ∈ t', TChar c) → (∀ c, r.head? = some c → ¬ TChar c) →
        (∀ c, r'.head? = some c → ¬ TChar c) → t ++ r = t' ++ r' → t = t' ∧ r = r' := by
      intro t
      induction t with
      | nil =>
        intro r t' r' _ h2 h3 _ e
        cases t' with
        | nil => exact ⟨rfl, e⟩
        | cons c t' =>
          exact absurd (h2 c (by simp)) (h3 c (by rw [List.nil_append] at e; rw [e]; rfl))
      | cons a t ih =>
        intro r t' r' h1 h2 h3 h4 e
        cases t' with
        | nil =>
          exact absurd (h1 a (by simp)) (h4 a (by rw [List.nil_append] at e; rw [← e]; rfl))
        | cons c t' =>
          simp only [List.cons_append, List.cons.injEq] at e
          obtain ⟨rfl, e⟩ := e
          obtain ⟨rfl, rfl⟩ := ih r t' r' (fun c hc => h1 c (by simp [hc])) (fun c hc => h2 c (by simp [hc])) h3 h4 e
          exact ⟨rfl, rfl⟩
    obtain ⟨rfl, rfl⟩ := this t r t' r' ht.2 h2.2 hr h3 h1
    rfl
  · obtain ⟨hn, hall⟩ := ht
    cases t with
    | nil => exact absurd rfl hn
    | cons c t => exact absurd (hall c (by simp)) (h c rfl)

end ParseUtils

namespace Forwarded

theorem quoted_unique {e v : Str} (h : QuotedText e v) :
    ∀ {e' v' r r' : Str}, QuotedText e' v' → e ++ '"' :: r = e' ++ '"' :: r' → e = e' ∧ v = v' ∧ r = r' := by
  have hq : ¬ QdText '"' := by
    rintro (h | h | h | h) <;> revert h <;> decide
  have hb : ¬ QdText '\\' := by
    rintro (h | h | h | h) <;> revert h <;> decide
  induction h with
  | nil =>
    intro e' v' r r' h' he
    cases h' with
    | nil => cases he; exact ⟨rfl, rfl, rfl⟩
    | plain hp _ =>
      simp only [List.nil_append, List.cons_append, List.cons.injEq] at he
      obtain ⟨rfl, _⟩ := he
      exact absurd hp hq
    | pair _ _ =>
      simp only [List.nil_append, List.cons_append, List.cons.injEq] at he
      exact absurd he.1 (by decide)
  | plain hp _ ih =>
    intro e' v' r r' h' he
    cases h' with
    | nil =>
      simp only [List.nil_append, List.cons_append, List.cons.injEq] at he
      obtain ⟨rfl, _⟩ := he
      exact absurd hp hq
    | plain hp' h'' =>
      simp only [List.cons_append, List.cons.injEq] at he
      obtain ⟨rfl, he⟩ := he
      obtain ⟨rfl, rfl, rfl⟩ := ih h'' he
      exact ⟨rfl, rfl, rfl⟩
    | pair _ _ =>
      simp only [List.cons_append, List.cons.injEq] at he
      obtain ⟨rfl, _⟩ := he
      exact absurd hp hb
  | pair hp _ ih =>
    intro e' v' r r' h' he
    cases h' with
    | nil =>
      simp only [List.nil_append, List.cons_append, List.cons.injEq] at he
      exact absurd he.1 (by decide)
    | plain hp' h'' =>
      simp only [List.cons_append, List.cons.injEq] at he
      obtain ⟨rfl, _⟩ := he
      exact absurd hp' hb
    | pair hp' h'' =>
      simp only [List.cons_append, List.cons.injEq] at he
      obtain ⟨_, rfl, he⟩ := he
      obtain ⟨rfl, rfl, rfl⟩ := ih h'' he
      exact ⟨rfl, rfl, rfl⟩

theorem not_token_quote (s : Str) : ¬ Token ('"' :: s) := by
  intro h
  have := (Mime.isToken_iff _).mpr (h.2 '"' (by simp))
  revert this
  decide

theorem parseValue_cases {s : Str} (hs : isAscii s = true) :
    (∃ raw v r, s = raw ++ r ∧ ParamText raw v ∧ (Token raw → ∀ c, r.head? = some c → ¬ TChar c) ∧
      parseValue s = .ok (some v, r)) ∨
    (∃ x, parseValue s = .ok (none, x)) := by
  unfold parseValue
  rcases parseToken_cases s with ⟨t, r, h1, h2, h3, h4⟩ | ⟨h1, h2⟩
  · left
    rw [h4]
    exact ⟨t, t, r, h1, .inl ⟨rfl, h2⟩, fun _ => h3, rfl⟩
  · rw [h1]
    rcases parseQuotedString_ascii hs with ⟨e, v, r, h3, h4, h5⟩ | ⟨h3, _⟩
    · left
      refine ⟨'"' :: (e ++ ['"']), v, r, by rw [h3]; simp, .inr ⟨e, rfl, h4⟩, ?_, h5⟩
      exact fun ht => absurd ht (not_token_quote _)
    · right
      exact ⟨s, h3⟩

theorem parseValue_of {raw v r : Str} (hs : isAscii (raw ++ r) = true) (hp : ParamText raw v)
    (hr : Token raw → ∀ c, r.head? = some c → ¬ TChar c) : parseValue (raw ++ r) = .ok (some v, r) := by
  unfold parseValue
  rcases hp with ⟨rfl, ht⟩ | ⟨e, rfl, he⟩
  · rw [parseToken_of ht (hr ht)]
  · have e1 : '"' :: (e ++ ['"']) ++ r = '"' :: (e ++ '"' :: r) := by simp
    rw [e1] at hs ⊢
    rcases parseToken_cases ('"' :: (e ++ '"' :: r)) with ⟨t, r', h1, h2, _, _⟩ | ⟨h1, _⟩
    · exfalso
      obtain ⟨hn, hall⟩ := h2
      cases t with
      | nil => exact hn rfl
      | cons c t =>
        simp only [List.cons_append, List.cons.injEq] at h1
        obtain ⟨rfl, _⟩ := h1
        exact not_token_quote _ ⟨by simp, hall⟩
    · rw [h1]
      simp only
      rcases parseQuotedString_ascii hs with ⟨e', v', r', h3, h4, h5⟩ | ⟨_, h3⟩
      · rw [h5]
        simp only [List.cons.injEq, true_and] at h3
        obtain ⟨_, rfl, rfl⟩ := quoted_unique he h4 h3
        rfl
      · exact absurd rfl (h3 e v r he)

theorem isFor_length {k : Str} (h : IsFor k) : k.length = 3 := by
  have := congrArg List.length h
  simpa [lower] using this

theorem isFor_token {k : Str} (h : IsFor k) : Token k := by
  refine ⟨fun e => (by rw [e] at h; cases h), ?_⟩
  intro c hc
  have h1 : lowerC c ∈ lower k := List.mem_map_of_mem hc
  rw [h] at h1
  have h2 : Mime.isToken (lowerC c) = true := by
    revert h1
    generalize lowerC c = d
    intro h1
    have : ∀ d ∈ s!!"for", Mime.isToken d = true := by decide
    exact this d h1
  rw [Mime.isToken_lowerC] at h2
  exact (Mime.isToken_iff c).mp h2

/-- The text starts with `for=`. -/
def StartsFor (s : Str) : Prop := ∃ k r, s = k ++ '=' :: r ∧ IsFor k

theorem for_take {s : Str} (hl : 4 ≤ s.length) :
    eqIgnoreCase (s.take 4) s!!"for=" = true ↔ StartsFor s := by
  have hlow : ∀ c, lowerC c = '=' ↔ c = '=' := by
    intro c
    constructor
    · intro h
      have := lowerC_toNat c
      rw [h] at this
      apply char_eq_of_toNat
      split at this
      · have e : '='.toNat = 61 := rfl
        omega
      · exact this.symm
    · rintro rfl; rfl
  match s, hl with
  | a :: b :: c :: d :: s, _ =>
    unfold eqIgnoreCase StartsFor IsFor
    rw [beq_iff_eq]
    constructor
    · intro h
      have h' : [lowerC a, lowerC b, lowerC c, lowerC d] = s!!"for=" := h
      simp only [List.cons.injEq, and_true] at h'
      refine ⟨[a, b, c], s, ?_, ?_⟩
      · rw [(hlow d).mp h'.2.2.2]; rfl
      · show [lowerC a, lowerC b, lowerC c] = _
        rw [h'.1, h'.2.1, h'.2.2.1]
    · rintro ⟨k, r, h1, h2⟩
      have h3 := isFor_length h2
      match k, h3 with
      | [x, y, z], _ =>
        simp only [List.cons_append, List.nil_append, List.cons.injEq] at h1
        obtain ⟨rfl, rfl, rfl, rfl, rfl⟩ := h1
        have h4 : [lowerC a, lowerC b, lowerC c] = s!!"for" := h2
        simp only [List.cons.injEq, and_true] at h4
        show [lowerC a, lowerC b, lowerC c, lowerC '='] = _
        rw [h4.1, h4.2.1, h4.2.2]
        rfl

theorem startsFor_length {s : Str} (h : StartsFor s) : 4 ≤ s.length := by
  obtain ⟨k, r, rfl, hk⟩ := h
  have := isFor_length hk
  simp
  omega

theorem byteLen_for : byteLen s!!"for=" = 4 := by decide

theorem startsWith_pos {s : Str} (hs : isAscii s = true) (h : StartsFor s) :
    startsWithIgnoreCase s!!"for=" s = .ok true := by
  have hl := startsFor_length h
  unfold startsWithIgnoreCase
  rw [byteLen_for, byteLen_ascii hs, if_pos hl, splitAtByte_ascii hs hl]
  simp only [Res.map_ok]
  rw [(for_take hl).mpr h]

theorem startsWith_neg {s : Str} (hs : isAscii s = true) (h : ¬ StartsFor s) :
    startsWithIgnoreCase s!!"for=" s = .ok false := by
  unfold startsWithIgnoreCase
  rw [byteLen_for, byteLen_ascii hs]
  by_cases hl : 4 ≤ s.length
  · rw [if_pos hl, splitAtByte_ascii hs hl]
    simp only [Res.map_ok]
    rw [Bool.eq_false_iff.mpr (fun e => h ((for_take hl).mp e))]
  · rw [if_neg hl]

theorem match_for {k r : Str} (hs : isAscii (k ++ '=' :: r) = true) (h : IsFor k) :
    matchIgnoreCase s!!"for=" (k ++ '=' :: r) = .ok (true, r) := by
  have h' : StartsFor (k ++ '=' :: r) := ⟨k, r, rfl, h⟩
  have hl := startsFor_length h'
  unfold matchIgnoreCase
  rw [byteLen_for, splitAtByte_ascii hs hl]
  simp only [Res.map_ok]
  rw [if_pos ((for_take hl).mpr h')]
  have h3 := isFor_length h
  match k, h3 with
  | [x, y, z], _ => rfl

theorem match_other {s : Str} (hs : isAscii s = true) (h : ¬ StartsFor s) :
    matchIgnoreCase s!!"for=" s = if s.length < 4 then .panic else .ok (false, s) := by
  unfold matchIgnoreCase
  rw [byteLen_for]
  by_cases hl : s.length < 4
  · rw [if_pos hl]
    have : ∀ n (s : Str), isAscii s = true → s.length < n → splitAtByte n s = .panic := by
      intro n s
      induction s generalizing n with
      | nil =>
        intro _ h
        cases n with
        | zero => cases h
        | succ n => unfold splitAtByte; rfl
      | cons c s ih =>
        intro ha h
        rw [isAscii_cons, Bool.and_eq_true] at ha
        cases n with
        | zero => cases h
        | succ n =>
          unfold splitAtByte
          rw [utf8Len_ascii ha.1, if_pos (by omega)]
          have e : n + 1 - 1 = n := by omega
          rw [e, ih n ha.2 (by simpa using h)]
          rfl
    rw [this 4 s hs hl]
    rfl
  · rw [if_neg hl, splitAtByte_ascii hs (by omega)]
    simp only [Res.map_ok]
    rw [if_neg (fun e => h ((for_take (by omega)).mp e))]

/-- One more `for` value. -/
def push (f : Forwarded) (v : Str) : Forwarded := { f with forwardedFor := f.forwardedFor ++ [v] }

theorem parseLoop_nil (f : Forwarded) : parseLoop f [] = .ok f := by
  unfold parseLoop; rfl

theorem parseFor_eq (f : Forwarded) (rest : Str) :
    parseFor f rest = (matchIgnoreCase s!!"for=" rest).bind fun
      | (false, _) => .err 500
      | (true, rest1) => (parseValue rest1).bind fun
        | (none, _) => .err 500
        | (some v, rest2) => match rest2 with
          | ',' :: rest3 => parseFor (push f v) (trimStart rest3)
          | ';' :: rest3 => .ok (push f v, rest3)
          | [] => .ok (push f v, [])
          | _ => .err 500 := by
  conv => lhs; unfold parseFor
  split
  · next h => rw [h]; rfl
  · next h => rw [h]; rfl
  · next h => rw [h]; rfl
  · next h =>
    rw [h]
    simp only [Res.bind_ok]
    split
    · next h => rw [h]; rfl
    · next h => rw [h]; rfl
    · next h => rw [h]; rfl
    · next h =>
      simp only [h, Res.bind_ok]
      split
      · rfl
      · rfl
      · rfl
      · next h1 h2 h3 =>
        split
        · exact (h1 _ h rfl HEq.rfl).elim
        · exact (h2 _ h rfl HEq.rfl).elim
        · exact (h3 h rfl HEq.rfl).elim
        · rfl

open Classical in
/-- What happens after a `for` value. -/
noncomputable def afterFor (f : Forwarded) (r : Str) : Res Forwarded :=
  match r with
  | ',' :: r =>
    if StartsFor (trimStart r) then parseLoop f (trimStart r)
    else if (trimStart r).length < 4 then .panic else .err 500
  | ';' :: r => parseLoop f r
  | [] => .ok f
  | _ => .err 500

theorem parseLoop_eq {f : Forwarded} {s : Str} (hs : isAscii s = true) (h : StartsFor s) :
    parseLoop f s = (parseFor f s).bind fun p => parseLoop p.1 p.2 := by
  conv => lhs; unfold parseLoop
  have hl := startsFor_length h
  rw [if_neg (by rintro rfl; simp at hl), startsWith_pos hs h]
  simp only
  cases hp : parseFor f s <;> rfl

theorem isAscii_of_append_right {a b : Str} (h : isAscii (a ++ b) = true) : isAscii b = true := by
  rw [isAscii_append, Bool.and_eq_true] at h
  exact h.2

theorem isAscii_trimStart {s : Str} (h : isAscii s = true) : isAscii (trimStart s) = true := by
  obtain ⟨w, hw, _⟩ := trimStart_suffix s
  rw [hw] at h
  exact isAscii_of_append_right h

theorem parseLoop_for {f : Forwarded} {k r : Str} (hs : isAscii (k ++ '=' :: r) = true) (h : IsFor k) :
    parseLoop f (k ++ '=' :: r) = (parseValue r).bind fun
      | (none, _) => .err 500
      | (some v, r2) => afterFor (push f v) r2 := by
  rw [parseLoop_eq hs ⟨k, r, rfl, h⟩]
  rw [parseFor_eq]
  have hr : isAscii r = true := by
    have := isAscii_of_append_right hs
    rw [isAscii_cons, Bool.and_eq_true] at this
    exact this.2
  rw [match_for hs h]
  simp only [Res.bind_ok]
  rcases parseValue_cases hr with ⟨raw, v, r2, h1, _, _, h4⟩ | ⟨x, h4⟩
  · rw [h4]
    simp only [Res.bind_ok]
    have hr2 : isAscii r2 = true := by rw [h1] at hr; exact isAscii_of_append_right hr
    clear h4 h1
    unfold afterFor
    split
    · next r3 _ =>
      rw [isAscii_cons, Bool.and_eq_true] at hr2
      have ha := isAscii_trimStart hr2.2
      by_cases hS : StartsFor (trimStart r3)
      · rw [if_pos hS, parseLoop_eq ha hS]
      · rw [if_neg hS]
        rw [parseFor_eq, match_other ha hS]
        by_cases hl : (trimStart r3).length < 4
        · rw [if_pos hl, if_pos hl]; rfl
        · rw [if_neg hl, if_neg hl]; rfl
    · rfl
    · show parseLoop _ [] = _
      rw [parseLoop_nil]
    · rfl
  · rw [h4]
    rfl

theorem parseLoop_pair {f : Forwarded} {s : Str} (hs : isAscii s = true) (h : ¬ StartsFor s) (hn : s ≠ []) :
    parseLoop f s = (parsePair f s).bind fun p => parseLoop p.1 p.2 := by
  conv => lhs; unfold parseLoop
  rw [if_neg hn, startsWith_neg hs h]
  simp only
  cases hp : parsePair f s <;> rfl

/-- The effect of a list of parameters. -/
def runPairs (f : Forwarded) : List (Str × Str) → Res Forwarded
  | [] => .ok f
  | (k, v) :: ps =>
    if lower k = s!!"for" then runPairs (push f v) ps else (store f k v).bind fun f => runPairs f ps

theorem store_err {f : Forwarded} {k v : Str} : (∃ f', store f k v = .ok f') ∨ store f k v = .err 500 := by
  unfold store
  split
  · split
    · exact .inr rfl
    · exact .inl ⟨_, rfl⟩
  · split
    · split
      · exact .inr rfl
      · exact .inl ⟨_, rfl⟩
    · split
      · split
        · exact .inr rfl
        · exact .inl ⟨_, rfl⟩
      · exact .inl ⟨_, rfl⟩

theorem parsePair_of {f : Forwarded} {k raw v r : Str} (hs : isAscii (raw ++ r) = true)
    (hk : Token k) (hp : ParamText raw v) (hr : Token raw → ∀ c, r.head? = some c → ¬ TChar c) :
    parsePair f (k ++ '=' :: (raw ++ r)) = (store f k v).bind fun f => .ok (f, stripSemi r) := by
  unfold parsePair
  have : ∀ c, ('=' :: (raw ++ r)).head? = some c → ¬ TChar c := by
    intro c hc
    cases hc
    rw [← Mime.isToken_iff]
    decide
  rw [parseToken_of hk this]
  simp only
  rw [parseValue_of hs hp hr]
  rfl

theorem parsePair_cases {f : Forwarded} {s : Str} (hs : isAscii s = true) :
    (∃ k raw v r, s = k ++ '=' :: (raw ++ r) ∧ isAscii (raw ++ r) = true ∧ Token k ∧ ParamText raw v ∧
      (Token raw → ∀ c, r.head? = some c → ¬ TChar c)) ∨ parsePair f s = .err 500 := by
  unfold parsePair
  rcases parseToken_cases s with ⟨t, r, h1, h2, h3, h4⟩ | ⟨h1, h2⟩
  · rw [h4]
    cases r with
    | nil => exact .inr rfl
    | cons c r =>
      by_cases hc : c = '='
      · subst hc
        have hr : isAscii r = true := by
          rw [h1] at hs
          have := isAscii_of_append_right hs
          rw [isAscii_cons, Bool.and_eq_true] at this
          exact this.2
        rcases parseValue_cases hr with ⟨raw, v, r2, h5, h6, h7, h8⟩ | ⟨x, h5⟩
        · left
          exact ⟨t, raw, v, r2, by rw [h1, h5], by rw [← h5]; exact hr, h2, h6, h7⟩
        · right
          simp only
          rw [h5]
          rfl
      · right
        split
        · next h => cases h; exact absurd rfl hc
        · rfl
  · right
    rw [h1]

theorem not_startsFor {k r : Str} (hk : Token k) (h : ¬ IsFor k) : ¬ StartsFor (k ++ '=' :: r) := by
  rintro ⟨k', r', h1, h2⟩
  have ht := isFor_token h2
  have ne : ∀ s, ∀ c, ('=' :: s).head? = some c → ¬ TChar c := by
    intro s c hc
    cases hc
    rw [← Mime.isToken_iff]
    decide
  have a := parseToken_of hk (ne r)
  have b := parseToken_of ht (ne r')
  rw [← h1, a] at b
  cases b
  exact h h2

theorem parseLoop_other {f : Forwarded} {k raw v r : Str} (hs : isAscii (k ++ '=' :: (raw ++ r)) = true)
    (hk : Token k) (hf : ¬ IsFor k) (hp : ParamText raw v) (hr : Token raw → ∀ c, r.head? = some c → ¬ TChar c) :
    parseLoop f (k ++ '=' :: (raw ++ r)) = (store f k v).bind fun f => parseLoop f (stripSemi r) := by
  have h1 : isAscii (raw ++ r) = true := by
    have := isAscii_of_append_right hs
    rw [isAscii_cons, Bool.and_eq_true] at this
    exact this.2
  rw [parseLoop_pair hs (not_startsFor hk hf) (by simp), parsePair_of h1 hk hp hr]
  cases store f k v <;> rfl

theorem parseLoop_for_of {f : Forwarded} {k raw v r : Str} (hs : isAscii (k ++ '=' :: (raw ++ r)) = true)
    (hf : IsFor k) (hp : ParamText raw v) (hr : Token raw → ∀ c, r.head? = some c → ¬ TChar c) :
    parseLoop f (k ++ '=' :: (raw ++ r)) = afterFor (push f v) r := by
  have h1 : isAscii (raw ++ r) = true := by
    have := isAscii_of_append_right hs
    rw [isAscii_cons, Bool.and_eq_true] at this
    exact this.2
  rw [parseLoop_for hs hf, parseValue_of h1 hp hr]
  rfl

theorem runPairs_for {f : Forwarded} {k v : Str} {ps : List (Str × Str)} (h : IsFor k) :
    runPairs f ((k, v) :: ps) = runPairs (push f v) ps := by
  unfold IsFor at h
  rw [runPairs, if_pos h]

theorem runPairs_other {f : Forwarded} {k v : Str} {ps : List (Str × Str)} (h : ¬ IsFor k) :
    runPairs f ((k, v) :: ps) = (store f k v).bind fun f => runPairs f ps := by
  unfold IsFor at h
  rw [runPairs, if_neg h]

theorem sep_not_tchar : ∀ c ∈ s!!";,=", ¬ TChar c := by
  intro c hc
  rw [← Mime.isToken_iff]
  revert c
  decide

theorem semi_head {raw r : Str} : Token raw → ∀ c, (';' :: r).head? = some c → ¬ TChar c := by
  intro _ c hc
  cases hc
  exact sep_not_tchar _ (by simp)

theorem comma_head {raw r : Str} : Token raw → ∀ c, (',' :: r).head? = some c → ¬ TChar c := by
  intro _ c hc
  cases hc
  exact sep_not_tchar _ (by simp)

theorem text_startsFor {s : Str} {k v : Str} {ps : List (Str × Str)} (h : ForwardedText s ((k, v) :: ps))
    (hk : IsFor k) : StartsFor s := by
  cases h with
  | pair _ hn _ _ => exact absurd hk hn
  | adjacent _ hn _ _ _ => exact absurd hk hn
  | last _ _ => exact ⟨_, _, rfl, hk⟩
  | semi _ _ _ => exact ⟨_, _, rfl, hk⟩
  | comma _ _ _ _ _ => exact ⟨_, _, rfl, hk⟩

theorem cut_startsFor {s : Str} {k v : Str} {ps : List (Str × Str)} (h : CutShort s ((k, v) :: ps))
    (hk : IsFor k) : StartsFor s := by
  cases h with
  | pair _ hn _ _ => exact absurd hk hn
  | adjacent _ hn _ _ _ => exact absurd hk hn
  | here _ _ _ _ _ => exact ⟨_, _, rfl, hk⟩
  | semi _ _ _ => exact ⟨_, _, rfl, hk⟩
  | comma _ _ _ _ _ => exact ⟨_, _, rfl, hk⟩

theorem startsFor_head {s : Str} (h : StartsFor s) : ∃ c t, s = c :: t ∧ TChar c ∧ isWs c = false := by
  obtain ⟨k, r, rfl, hk⟩ := h
  have ht := isFor_token hk
  obtain ⟨hn, hall⟩ := ht
  cases k with
  | nil => exact absurd rfl hn
  | cons c k =>
    refine ⟨c, k ++ '=' :: r, rfl, hall c (by simp), ?_⟩
    have := Mime.tchar_nat (hall c (by simp))
    unfold isWs
    simp
    omega

theorem trimStart_startsFor {w s : Str} (hw : ∀ c ∈ w, isWs c = true) (h : StartsFor s) :
    trimStart (w ++ s) = s := by
  rw [trimStart_ws_append hw]
  obtain ⟨c, t, rfl, _, hc⟩ := startsFor_head h
  exact trimStart_of_head (by intro d hd; cases hd; exact hc)

theorem stripSemi_semi (r : Str) : stripSemi (';' :: r) = r := by
  simp [stripSemi, stripPrefix]

theorem stripSemi_other {r : Str} (h : ∀ c, r.head? = some c → c ≠ ';') : stripSemi r = r := by
  unfold stripSemi
  cases r with
  | nil => rfl
  | cons c r =>
    have : ¬ ';' = c := fun e => h c rfl e.symm
    simp [stripPrefix, this]

theorem token_head {k r : Str} (hk : Token k) : ∃ c t, k ++ r = c :: t ∧ TChar c := by
  obtain ⟨hn, hall⟩ := hk
  cases k with
  | nil => exact absurd rfl hn
  | cons c k => exact ⟨c, k ++ r, rfl, hall c (by simp)⟩

theorem text_head {s : Str} {ps : List (Str × Str)} (h : ForwardedText s ps) :
    s = [] ∨ ∃ c t, s = c :: t ∧ TChar c := by
  cases h with
  | nil => exact .inl rfl
  | pair hk _ _ _ => exact .inr (token_head hk)
  | adjacent hk _ _ _ _ => exact .inr (token_head hk)
  | last hk _ => exact .inr (token_head (isFor_token hk))
  | semi hk _ _ => exact .inr (token_head (isFor_token hk))
  | comma hk _ _ _ _ => exact .inr (token_head (isFor_token hk))

theorem cut_head {s : Str} {ps : List (Str × Str)} (h : CutShort s ps) :
    ∃ c t, s = c :: t ∧ TChar c := by
  cases h with
  | here hk _ _ _ _ => exact token_head (isFor_token hk)
  | pair hk _ _ _ => exact token_head hk
  | adjacent hk _ _ _ _ => exact token_head hk
  | semi hk _ _ => exact token_head (isFor_token hk)
  | comma hk _ _ _ _ => exact token_head (isFor_token hk)

theorem isAscii_right_cons {a : Str} {c : Char} {b : Str} (h : isAscii (a ++ c :: b) = true) : isAscii b = true := by
  have := isAscii_of_append_right h
  rw [isAscii_cons, Bool.and_eq_true] at this
  exact this.2

/-- A legal text is read as the effect of its parameters. -/
theorem parseLoop_text {s : Str} {ps : List (Str × Str)} (h : ForwardedText s ps) :
    ∀ {f : Forwarded}, isAscii s = true → parseLoop f s = runPairs f ps := by
  induction h with
  | nil => intro f _; rw [parseLoop_nil]; rfl
  | pair hk hf hp _ ih =>
    intro f hs
    rw [parseLoop_other hs hk hf hp semi_head, runPairs_other hf, stripSemi_semi]
    congr 1
    funext f'
    exact ih (isAscii_right_cons (isAscii_right_cons hs))
  | adjacent hk hf hp hr hrest ih =>
    intro f hs
    rename_i rest _
    have hne : ∀ c, rest.head? = some c → c ≠ ';' := by
      intro c hc e
      subst e
      rcases text_head hrest with e | ⟨d, t, e, hd⟩
      · rw [e] at hc; cases hc
      · rw [e] at hc; cases hc
        exact sep_not_tchar _ (by simp) hd
    rw [parseLoop_other hs hk hf hp, runPairs_other hf, stripSemi_other hne]
    · congr 1
      funext f'
      exact ih (isAscii_of_append_right (isAscii_right_cons hs))
    · rcases hr with rfl | hr
      · intro _ c hc; cases hc
      · exact fun ht => absurd ht hr
  | last hk hp =>
    intro f hs
    rename_i k raw v
    have := parseLoop_for_of (f := f) (r := []) (by rw [List.append_nil]; exact hs) hk hp (by
      intro _ c hc; cases hc)
    rw [List.append_nil] at this
    rw [this, runPairs_for hk]
    rfl
  | semi hk hp _ ih =>
    intro f hs
    rw [parseLoop_for_of hs hk hp semi_head, runPairs_for hk]
    exact ih (isAscii_right_cons (isAscii_right_cons hs))
  | comma hk hp hw hk' hrest ih =>
    intro f hs
    have hS := text_startsFor hrest hk'
    rw [parseLoop_for_of hs hk hp comma_head, runPairs_for hk]
    unfold afterFor
    simp only
    rw [trimStart_startsFor hw hS, if_pos hS]
    exact ih (isAscii_of_append_right (isAscii_right_cons (isAscii_right_cons hs)))

/-- A text that is cut short makes the parser panic, unless it has already failed. -/
theorem parseLoop_cut {s : Str} {ps : List (Str × Str)} (h : CutShort s ps) :
    ∀ {f : Forwarded}, isAscii s = true → parseLoop f s = (runPairs f ps).bind fun _ => .panic := by
  induction h with
  | here hk hp hw hl hh =>
    intro f hs
    rw [parseLoop_for_of hs hk hp comma_head, runPairs_for hk]
    unfold afterFor
    simp only
    rw [trimStart_ws_append hw, trimStart_of_head hh, if_neg, if_pos hl]
    · rfl
    · intro hS
      have := startsFor_length hS
      omega
  | pair hk hf hp _ ih =>
    intro f hs
    rw [parseLoop_other hs hk hf hp semi_head, runPairs_other hf, stripSemi_semi]
    cases store f _ _ with
    | ok f' => exact ih (isAscii_right_cons (isAscii_right_cons hs))
    | err _ => rfl
    | panic => rfl
  | adjacent hk hf hp hr hrest ih =>
    intro f hs
    rename_i rest _
    have hne : ∀ c, rest.head? = some c → c ≠ ';' := by
      intro c hc e
      subst e
      obtain ⟨d, t, e, hd⟩ := cut_head hrest
      rw [e] at hc; cases hc
      exact sep_not_tchar _ (by simp) hd
    rw [parseLoop_other hs hk hf hp (fun ht => absurd ht hr), runPairs_other hf, stripSemi_other hne]
    cases store f _ _ with
    | ok f' => exact ih (isAscii_of_append_right (isAscii_right_cons hs))
    | err _ => rfl
    | panic => rfl
  | semi hk hp _ ih =>
    intro f hs
    rw [parseLoop_for_of hs hk hp semi_head, runPairs_for hk]
    exact ih (isAscii_right_cons (isAscii_right_cons hs))
  | comma hk hp hw hk' hrest ih =>
    intro f hs
    have hS := cut_startsFor hrest hk'
    rw [parseLoop_for_of hs hk hp comma_head, runPairs_for hk]
    unfold afterFor
    simp only
    rw [trimStart_startsFor hw hS, if_pos hS]
    exact ih (isAscii_of_append_right (isAscii_right_cons (isAscii_right_cons hs)))

theorem text_first_for {s : Str} {ps : List (Str × Str)} (h : ForwardedText s ps) (hS : StartsFor s) :
    ∃ k v ps', ps = (k, v) :: ps' ∧ IsFor k := by
  cases h with
  | nil => have := startsFor_length hS; simp at this
  | pair hk hn _ _ => exact absurd hS (not_startsFor hk hn)
  | adjacent hk hn _ _ _ => exact absurd hS (not_startsFor hk hn)
  | last hk _ => exact ⟨_, _, _, rfl, hk⟩
  | semi hk _ _ => exact ⟨_, _, _, rfl, hk⟩
  | comma hk _ _ _ _ => exact ⟨_, _, _, rfl, hk⟩

theorem cut_first_for {s : Str} {ps : List (Str × Str)} (h : CutShort s ps) (hS : StartsFor s) :
    ∃ k v ps', ps = (k, v) :: ps' ∧ IsFor k := by
  cases h with
  | here hk _ _ _ _ => exact ⟨_, _, _, rfl, hk⟩
  | pair hk hn _ _ => exact absurd hS (not_startsFor hk hn)
  | adjacent hk hn _ _ _ => exact absurd hS (not_startsFor hk hn)
  | semi hk _ _ => exact ⟨_, _, _, rfl, hk⟩
  | comma hk _ _ _ _ => exact ⟨_, _, _, rfl, hk⟩

/-- Every ASCII text is legal, or cut short, or refused. -/
theorem parseLoop_cases {s : Str} (hs : isAscii s = true) (f : Forwarded) :
    (∃ ps, ForwardedText s ps) ∨ (∃ ps, CutShort s ps) ∨ parseLoop f s = .err 500 := by
  induction hn : s.length using Nat.strongRecOn generalizing s f with
  | _ n ih =>
    by_cases he : s = []
    · subst he; exact .inl ⟨[], .nil⟩
    by_cases hS : StartsFor s
    · obtain ⟨k, r, rfl, hk⟩ := hS
      have hr := isAscii_right_cons hs
      rcases parseValue_cases hr with ⟨raw, v, r2, h1, h2, h3, h4⟩ | ⟨x, h4⟩
      · subst h1
        rw [parseLoop_for hs hk, h4]
        simp only [Res.bind_ok]
        have hr2 := isAscii_of_append_right hr
        unfold afterFor
        split
        · next r3 =>
          have hr3 : isAscii r3 = true := by
            rw [isAscii_cons, Bool.and_eq_true] at hr2; exact hr2.2
          obtain ⟨w, hw1, hw2⟩ := trimStart_suffix r3
          have hlen : (trimStart r3).length ≤ r3.length := by
            conv => rhs; rw [hw1]
            simp
          by_cases hS : StartsFor (trimStart r3)
          · rw [if_pos hS]
            rcases ih (trimStart r3).length (by rw [← hn]; simp; omega) (isAscii_trimStart hr3) (push f v) rfl with
              ⟨ps, h⟩ | ⟨ps, h⟩ | h
            · left
              obtain ⟨k', v', ps', rfl, hk'⟩ := text_first_for h hS
              refine ⟨(k, v) :: (k', v') :: ps', ?_⟩
              rw [hw1]
              exact .comma hk h2 hw2 hk' h
            · right; left
              obtain ⟨k', v', ps', rfl, hk'⟩ := cut_first_for h hS
              refine ⟨(k, v) :: (k', v') :: ps', ?_⟩
              rw [hw1]
              exact .comma hk h2 hw2 hk' h
            · exact .inr (.inr h)
          · rw [if_neg hS]
            by_cases hl : (trimStart r3).length < 4
            · right; left
              refine ⟨[(k, v)], ?_⟩
              rw [hw1]
              exact .here hk h2 hw2 hl trimStart_head
            · rw [if_neg hl]
              exact .inr (.inr rfl)
        · next r3 =>
          have hr3 : isAscii r3 = true := by
            rw [isAscii_cons, Bool.and_eq_true] at hr2; exact hr2.2
          rcases ih r3.length (by rw [← hn]; simp; omega) hr3 (push f v) rfl with ⟨ps, h⟩ | ⟨ps, h⟩ | h
          · exact .inl ⟨_, .semi hk h2 h⟩
          · exact .inr (.inl ⟨_, .semi hk h2 h⟩)
          · exact .inr (.inr h)
        · left
          rw [List.append_nil]
          exact ⟨_, .last hk h2⟩
        · exact .inr (.inr rfl)
      · rw [parseLoop_for hs hk, h4]
        exact .inr (.inr rfl)
    · rcases parsePair_cases (f := f) hs with ⟨k, raw, v, r, rfl, h2, h3, h4, h5⟩ | h
      · have hf : ¬ IsFor k := fun hk => hS ⟨k, _, rfl, hk⟩
        rw [parseLoop_other hs h3 hf h4 h5]
        rcases store_err (f := f) (k := k) (v := v) with ⟨f', hst⟩ | hst
        · rw [hst]
          simp only [Res.bind_ok]
          have hr : isAscii r = true := isAscii_of_append_right h2
          by_cases hsemi : ∃ r', r = ';' :: r'
          · obtain ⟨r', rfl⟩ := hsemi
            rw [stripSemi_semi]
            have hr' : isAscii r' = true := by
              rw [isAscii_cons, Bool.and_eq_true] at hr; exact hr.2
            rcases ih r'.length (by rw [← hn]; simp; omega) hr' f' rfl with ⟨ps, h⟩ | ⟨ps, h⟩ | h
            · exact .inl ⟨_, .pair h3 hf h4 h⟩
            · exact .inr (.inl ⟨_, .pair h3 hf h4 h⟩)
            · exact .inr (.inr h)
          · have hne : ∀ c, r.head? = some c → c ≠ ';' := by
              intro c hc e
              subst e
              cases r with
              | nil => cases hc
              | cons d r => cases hc; exact hsemi ⟨r, rfl⟩
            rw [stripSemi_other hne]
            rcases ih r.length (by rw [← hn]; simp; omega) hr f' rfl with ⟨ps, h⟩ | ⟨ps, h⟩ | h
            · left
              refine ⟨_, .adjacent h3 hf h4 ?_ h⟩
              rcases text_head h with e | ⟨c, t, e, hc⟩
              · exact .inl e
              · right
                intro ht
                exact h5 ht c (by rw [e]; rfl) hc
            · right; left
              refine ⟨_, .adjacent h3 hf h4 ?_ h⟩
              obtain ⟨c, t, e, hc⟩ := cut_head h
              intro ht
              exact h5 ht c (by rw [e]; rfl) hc
            · exact .inr (.inr h)
        · rw [hst]
          exact .inr (.inr rfl)
      · rw [parseLoop_pair hs hS he, h]
        exact .inr (.inr rfl)

end Forwarded
end HT
