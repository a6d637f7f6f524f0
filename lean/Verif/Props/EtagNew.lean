import Verif.Model.EtagNew
import Verif.Props.Lists

/-! C33: making entity tags. -/

namespace HT
open Spec

/-- C33: what an entity tag that was made prints and how it counts. In a release build every text makes one; a build with debug
assertions panics exactly on a text with a backslash. -/
theorem C33_made (debug : Bool) (s : Str) :
    (ETag.new debug s = .panic ↔ debug = true ∧ '\\' ∈ s) ∧ (ETag.newWeak debug s = .panic ↔ debug = true ∧ '\\' ∈ s) ∧
    (∀ e, ETag.new debug s = .ok e ↔ ¬ (debug = true ∧ '\\' ∈ s) ∧ e.display = '"' :: s ++ ['"'] ∧ e.isStrong = true) ∧
    (∀ e, ETag.newWeak debug s = .ok e ↔
      ¬ (debug = true ∧ '\\' ∈ s) ∧ e.display = 'W' :: '/' :: '"' :: s ++ ['"'] ∧ e.isWeak = true) ∧
    (∀ x, ETag.new debug s ≠ .err x ∧ ETag.newWeak debug s ≠ .err x) ∧
    ∀ e : ETag, e.isWeak = !e.isStrong := by
  have h : (debug && s.contains '\\') = true ↔ debug = true ∧ '\\' ∈ s := by simp
  refine ⟨?_, ?_, fun e => ?_, fun e => ?_, fun x => ?_, fun e => by cases e <;> rfl⟩
  · unfold ETag.new; rw [← h]; split <;> simp_all
  · unfold ETag.newWeak; rw [← h]; split <;> simp_all
  · unfold ETag.new; rw [← h]; split
    · simp_all
    · rename_i hn
      simp only [hn, Res.ok.injEq]
      cases e with
      | strong t => constructor <;> intro he <;> simp_all [ETag.display, ETag.isStrong]
      | weak t => simp [ETag.isStrong]
  · unfold ETag.newWeak; rw [← h]; split
    · simp_all
    · rename_i hn
      simp only [hn, Res.ok.injEq]
      cases e with
      | strong t => simp [ETag.isWeak]
      | weak t => constructor <;> intro he <;> simp_all [ETag.display, ETag.isWeak]
  · constructor
    · unfold ETag.new; split <;> simp
    · unfold ETag.newWeak; split <;> simp

/-- A tag that a peer may send, that is read, and that cannot be made in a debug build. -/
example : ETag.fromStr s!!"\"a\\b\"" = .ok (.strong s!!"a\\b") ∧ ETag.new true s!!"a\\b" = .panic ∧
    ETag.new false s!!"a\\b" = .ok (.strong s!!"a\\b") := by decide +kernel

/-- C33: a tag that was made comes back from the header exactly if its text has only legal characters. -/
theorem C33_made_roundtrip (debug : Bool) (s : Str) (e : ETag)
    (h : ETag.new debug s = .ok e ∨ ETag.newWeak debug s = .ok e) :
    RoundTrips s!!"etag" e.value ETag.fromHeaders e ↔ ∀ c ∈ s, c.toNat = 0x21 ∨ (0x23 ≤ c.toNat ∧ c.toNat ≤ 0x7E) := by
  have hb : etagBody e = s := by
    rcases h with h | h
    · unfold ETag.new at h; split at h <;> simp at h; subst h; rfl
    · unfold ETag.newWeak at h; split at h <;> simp at h; subst h; rfl
  rw [C33_header_roundtrip]
  unfold EtagLegal Ascii
  rw [hb, ← forall₂_and]
  refine forall₂_congr fun c _ => ?_
  have h1 : ' ' < c ↔ 32 < c.toNat := by rw [Char.lt_def, UInt32.lt_iff_toNat_lt]; rfl
  have h2 : c = '"' ↔ c.toNat = 34 := ⟨fun h => by rw [h]; rfl, fun h => char_eq_of_toNat h⟩
  rw [h1, ne_eq, h2]
  omega

example : ¬ RoundTrips s!!"etag" (ETag.strong s!!"a\"b").value ETag.fromHeaders (.strong s!!"a\"b") ∧
    RoundTrips s!!"etag" (ETag.weak s!!"a,b").value ETag.fromHeaders (.weak s!!"a,b") := by
  refine ⟨fun h => ?_, (C33_made_roundtrip true s!!"a,b" _ (.inr rfl)).2 (by decide)⟩
  exact absurd ((C33_made_roundtrip true s!!"a\"b" _ (.inl rfl)).1 h) (by decide)

end HT
