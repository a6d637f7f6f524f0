import Verif.Spec.Injection
import Verif.Lemmas.Lists
import Verif.Lemmas.Num
import Verif.Lemmas.Mime

/-! ASCII texts under the ways texts are put together. -/

namespace HT
open Spec

@[local simp] theorem asciiT_nil : Ascii [] := by intro c h; cases h

@[local simp] theorem asciiT_append {a b : Str} : Ascii (a ++ b) ↔ Ascii a ∧ Ascii b := by
  unfold Ascii
  constructor
  · intro h; exact ⟨fun c hc => h c (by simp [hc]), fun c hc => h c (by simp [hc])⟩
  · rintro ⟨h1, h2⟩ c hc
    rcases List.mem_append.mp hc with h | h
    · exact h1 c h
    · exact h2 c h

@[local simp] theorem asciiT_cons {c : Char} {s : Str} : Ascii (c :: s) ↔ c.toNat < 128 ∧ Ascii s := by
  unfold Ascii
  simp

theorem Spec.Ascii.mono {s t : Str} (h : Ascii t) (hs : ∀ c ∈ s, c ∈ t) : Ascii s := fun c hc => h c (hs c hc)

theorem asciiT_join {sep : Str} (hs : Ascii sep) {xs : List Str} :
    Ascii (join sep xs) ↔ ∀ x ∈ xs, Ascii x := by
  induction xs with
  | nil => simp [join]
  | cons x xs ih =>
    cases xs with
    | nil => simp [join]
    | cons y ys =>
      rw [show join sep (x :: y :: ys) = x ++ sep ++ join sep (y :: ys) from rfl]
      rw [asciiT_append, asciiT_append, ih]
      constructor
      · rintro ⟨⟨h1, _⟩, h2⟩ z hz
        rcases List.mem_cons.mp hz with rfl | hz
        · exact h1
        · exact h2 z hz
      · intro h
        exact ⟨⟨h x (by simp), hs⟩, fun z hz => h z (List.mem_cons_of_mem _ hz)⟩

theorem asciiT_writeLoop {xs : List Str} : Ascii (writeLoop [] true xs) ↔ ∀ x ∈ xs, Ascii x := by
  rw [writeLoop_eq, asciiT_join (by decide)]

theorem asciiT_writeStar {star out : Str} {w : Bool} (hs : Ascii star) :
    Ascii (writeStar star out w) ↔ Ascii out := by
  unfold writeStar
  cases w with
  | false => simp
  | true =>
    have : Ascii s!!", " := by decide
    by_cases h : byteLen out = 0
    · simp [h, hs]
    · simp only [if_true, if_neg h]
      rw [asciiT_append, asciiT_append]
      exact ⟨fun h => h.1, fun h => ⟨h, this, hs⟩⟩

theorem asciiT_dec (n : Nat) : Ascii (dec n) := by
  intro c hc
  have := isDigit_iff_le.mp (dec_digits n c hc)
  rw [Mime.char_le, Mime.char_le] at this
  have h1 : ('0' : Char).toNat = 48 := rfl
  have h2 : ('9' : Char).toNat = 57 := rfl
  omega

theorem asciiT_zpad (w n : Nat) : Ascii (zpad w (dec n)) := by
  unfold zpad
  rw [asciiT_append]
  refine ⟨?_, asciiT_dec n⟩
  intro c hc
  rw [List.eq_of_mem_replicate hc]
  decide

theorem asciiT_hexPad (w n : Nat) : Ascii (hexPad w n) := by
  intro c hc
  obtain ⟨d, hd, rfl⟩ := hexPad_chars w n c hc
  have : ∀ d < 16, (digitC d).toNat < 128 := by decide
  exact this d hd

theorem asciiT_natStr (n : Nat) : Ascii (natStr 10 n) := asciiT_dec n

theorem asciiT_token {s : Str} (h : ∀ c ∈ s, TChar c) : Ascii s := by
  intro c hc
  have := Mime.tchar_nat (h c hc)
  omega

/-- Putting backslashes before some characters. -/
theorem asciiT_escape {p : Char → Prop} [DecidablePred p] {s : Str} :
    Ascii (s.flatMap fun c => if p c then ['\\', c] else [c]) ↔ Ascii s := by
  induction s with
  | nil => simp
  | cons c s ih =>
    rw [List.flatMap_cons, asciiT_append, ih, asciiT_cons]
    by_cases h : p c
    · simp only [if_pos h, asciiT_cons, asciiT_nil, and_true]
      constructor
      · rintro ⟨⟨_, h⟩, h'⟩; exact ⟨h, h'⟩
      · rintro ⟨h, h'⟩; exact ⟨⟨by decide, h⟩, h'⟩
    · simp [if_neg h]

theorem asciiT_flatMap {α : Type} {f : α → Str} {l : List α} :
    Ascii (l.flatMap f) ↔ ∀ x ∈ l, Ascii (f x) := by
  induction l with
  | nil => simp
  | cons a l ih => simp [List.flatMap_cons, ih]

theorem asciiT_trim {s : Str} (h : Ascii s) : Ascii (trim s) := h.mono fun _ hc => mem_of_mem_trim hc

theorem asciiT_lower {s : Str} : Ascii (lower s) ↔ Ascii s := by
  have key : ∀ c : Char, (lowerC c).toNat < 128 ↔ c.toNat < 128 := by
    intro c
    have h := lowerC_toNat c
    by_cases hu : 65 ≤ c.toNat ∧ c.toNat ≤ 90
    · rw [if_pos hu] at h; omega
    · rw [if_neg hu] at h; rw [h]
  unfold lower Ascii
  simp [key]

end HT
