import Verif.Spec.Injection
import Verif.Lemmas.Lists
import Verif.Lemmas.Num
import Verif.Lemmas.Mime

/-! Field texts under the ways texts are put together. -/

namespace HT
open Spec

@[simp] theorem fieldText_nil : FieldText [] := by intro c h; cases h

@[simp] theorem fieldText_append {a b : Str} : FieldText (a ++ b) ↔ FieldText a ∧ FieldText b := by
  unfold FieldText
  constructor
  · intro h; exact ⟨fun c hc => h c (by simp [hc]), fun c hc => h c (by simp [hc])⟩
  · rintro ⟨h1, h2⟩ c hc
    rcases List.mem_append.mp hc with h | h
    · exact h1 c h
    · exact h2 c h

@[simp] theorem fieldText_cons {c : Char} {s : Str} : FieldText (c :: s) ↔ FieldChar c ∧ FieldText s := by
  unfold FieldText
  simp

theorem Spec.FieldText.mono {s t : Str} (h : FieldText t) (hs : ∀ c ∈ s, c ∈ t) : FieldText s := fun c hc => h c (hs c hc)

theorem fieldText_join {sep : Str} (hs : FieldText sep) {xs : List Str} :
    FieldText (join sep xs) ↔ ∀ x ∈ xs, FieldText x := by
  induction xs with
  | nil => simp [join]
  | cons x xs ih =>
    cases xs with
    | nil => simp [join]
    | cons y ys =>
      rw [show join sep (x :: y :: ys) = x ++ sep ++ join sep (y :: ys) from rfl]
      rw [fieldText_append, fieldText_append, ih]
      constructor
      · rintro ⟨⟨h1, _⟩, h2⟩ z hz
        rcases List.mem_cons.mp hz with rfl | hz
        · exact h1
        · exact h2 z hz
      · intro h
        exact ⟨⟨h x (by simp), hs⟩, fun z hz => h z (List.mem_cons_of_mem _ hz)⟩

theorem fieldText_writeLoop {xs : List Str} : FieldText (writeLoop [] true xs) ↔ ∀ x ∈ xs, FieldText x := by
  rw [writeLoop_eq, fieldText_join (by decide)]

theorem fieldText_writeStar {star out : Str} {w : Bool} (hs : FieldText star) :
    FieldText (writeStar star out w) ↔ FieldText out := by
  unfold writeStar
  cases w with
  | false => simp
  | true =>
    have : FieldText s!!", " := by decide
    by_cases h : byteLen out = 0
    · simp [h, hs]
    · simp only [if_true, if_neg h]
      rw [fieldText_append, fieldText_append]
      exact ⟨fun h => h.1, fun h => ⟨h, this, hs⟩⟩

theorem fieldText_dec (n : Nat) : FieldText (dec n) := by
  intro c hc
  have := isDigit_iff_le.mp (dec_digits n c hc)
  rw [Mime.char_le, Mime.char_le] at this
  right
  have h1 : ('0' : Char).toNat = 48 := rfl
  have h2 : ('9' : Char).toNat = 57 := rfl
  omega

theorem fieldText_zpad (w n : Nat) : FieldText (zpad w (dec n)) := by
  unfold zpad
  rw [fieldText_append]
  refine ⟨?_, fieldText_dec n⟩
  intro c hc
  rw [List.eq_of_mem_replicate hc]
  decide

theorem fieldText_hexPad (w n : Nat) : FieldText (hexPad w n) := by
  intro c hc
  obtain ⟨d, hd, rfl⟩ := hexPad_chars w n c hc
  have : ∀ d < 16, FieldChar (digitC d) := by decide
  exact this d hd

theorem fieldText_natStr (n : Nat) : FieldText (natStr 10 n) := fieldText_dec n

theorem fieldText_token {s : Str} (h : ∀ c ∈ s, TChar c) : FieldText s := by
  intro c hc
  have := Mime.tchar_nat (h c hc)
  right; omega

theorem fieldText_quoted {s : Str} (h : ∀ c ∈ s, QuotedChar c) : FieldText s := by
  intro c hc
  rcases h c hc with h | h
  · exact .inl h
  · right; omega

/-- Putting backslashes before some characters. -/
theorem fieldText_escape {p : Char → Prop} [DecidablePred p] {s : Str} :
    FieldText (s.flatMap fun c => if p c then ['\\', c] else [c]) ↔ FieldText s := by
  induction s with
  | nil => simp
  | cons c s ih =>
    rw [List.flatMap_cons, fieldText_append, ih, fieldText_cons]
    by_cases h : p c
    · simp only [if_pos h, fieldText_cons, fieldText_nil, and_true]
      constructor
      · rintro ⟨⟨_, h⟩, h'⟩; exact ⟨h, h'⟩
      · rintro ⟨h, h'⟩; exact ⟨⟨by decide, h⟩, h'⟩
    · simp [if_neg h]

theorem fieldText_flatMap {α : Type} {f : α → Str} {l : List α} :
    FieldText (l.flatMap f) ↔ ∀ x ∈ l, FieldText (f x) := by
  induction l with
  | nil => simp
  | cons a l ih => simp [List.flatMap_cons, ih]

theorem fieldText_trim {s : Str} (h : FieldText s) : FieldText (trim s) := h.mono fun _ hc => mem_of_mem_trim hc

theorem fieldText_lower {s : Str} : FieldText (lower s) ↔ FieldText s := by
  have key : ∀ c : Char, FieldChar (lowerC c) ↔ FieldChar c := by
    intro c
    have h := lowerC_toNat c
    by_cases hu : 65 ≤ c.toNat ∧ c.toNat ≤ 90
    · rw [if_pos hu] at h
      constructor
      · intro _; right; omega
      · intro _; right; omega
    · rw [if_neg hu] at h
      rw [char_eq_of_toNat h]
  unfold lower FieldText
  simp [key]

end HT
