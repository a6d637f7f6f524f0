import Verif.Spec.File
import Verif.Props.Body
import Verif.Props.Mime

/-! Bodies from files: C79. -/

namespace HT
open Spec

theorem sniff_spec (infer : List Byte → Option Str) (start : List Byte) :
    (∀ m, Mime.sniff infer (fillBuffer start) = .ok m ↔ Recognised infer start m) ∧
      Mime.sniff infer (fillBuffer start) ≠ .panic := by
  unfold Mime.sniff Recognised fillBuffer
  cases infer (start ++ List.replicate (300 - start.length) 0) with
  | none => simp
  | some t =>
    refine ⟨fun m => by simp, ?_⟩
    rcases C23_never_panics t with ⟨m, e⟩ | e <;> simp [e]

theorem typed_of_sniff (infer : List Byte → Option Str) (start : List Byte) (path : Str) (o : Option Mime)
    (ho : o = match Mime.sniff infer (fillBuffer start) with
      | .ok m => some m
      | _ => none) (m : Mime) :
    (o.or (guessExt path)).getD Mime.BYTE_STREAM = m ↔ Typed infer start path m := by
  have h := (sniff_spec infer start).1
  unfold Typed
  simp only [← h]
  subst ho
  cases Mime.sniff infer (fillBuffer start) with
  | ok x => simp
  | err e => cases guessExt path <;> simp [eq_comm]
  | panic => cases guessExt path <;> simp [eq_comm]

/-- Sniffing gives the media type that the recogniser's answer names; it fails with status 500 when nothing is recognised or
the answer is no media type; it never panics. -/
theorem C79_sniff (infer : List Byte → Option Str) (bs : List Byte) :
    (∀ m, Mime.sniff infer bs = .ok m ↔ ∃ t, infer bs = some t ∧ Mime.parse t = .ok m) ∧
      (Mime.sniff infer bs = .err 500 ↔ ∀ t, infer bs = some t → ∀ m, Mime.parse t ≠ .ok m) ∧
      ((∃ m, Mime.sniff infer bs = .ok m) ∨ Mime.sniff infer bs = .err 500) := by
  unfold Mime.sniff
  cases infer bs with
  | none => simp
  | some t => rcases C23_never_panics t with ⟨m, e⟩ | e <;> simp [e]

example : Mime.sniff (fun _ => some s!!"image/png") [137] = Mime.parse s!!"image/png" ∧
    Mime.sniff (fun _ => some s!!"nonsense") [1] = .err 500 ∧ Mime.sniff (fun _ => none) [1] = .err 500 :=
  ⟨rfl, by decide +kernel, rfl⟩

/-- A sniffer that knows the first two bytes of a PNG. -/
def toySniff : List Byte → Option Str
  | 137 :: 80 :: _ => some s!!"image/png"
  | _ => none

/-- A body is made exactly if the operating system does not fail. It has the length of the file and delivers exactly
the bytes of the file from its beginning, wherever the handle stood. -/
theorem C79_content (infer : List Byte → Option Str) (f : File) (path : Str) (run : FileRun) :
    ((∃ b, Body.fromFileWithPath infer f path run = some b) ↔ run.metadataOk ∧ run.read ≠ none ∧ run.seekOk) ∧
      ∀ b, Body.fromFileWithPath infer f path run = some b →
        b.len = some f.bytes.length ∧ Holds (Body.readerI cursorI) b f.bytes := by
  obtain ⟨mo, rd, so⟩ := run
  unfold Body.fromFileWithPath peekMime
  constructor
  · cases mo <;> cases rd <;> cases so <;> simp
  · intro b hb
    cases mo with
    | false => simp at hb
    | true =>
      cases rd with
      | none => simp at hb
      | some k =>
        cases so with
        | false => simp at hb
        | true =>
          simp only [if_true, List.drop_zero, Option.some.injEq] at hb
          subst hb
          refine ⟨rfl, ?_⟩
          have key : ∀ m : Option Mime, Holds (Body.readerI cursorI) ⟨f.bytes, m, some f.bytes.length, 0⟩ f.bytes := by
            intro m
            have := body_holds (I := cursorI) (b := ⟨f.bytes, m, some f.bytes.length, 0⟩) (fun l _ => Nat.zero_le _)
              (cursor_holds f.bytes)
            simpa [remaining] using this
          exact key _

example : ∃ b, Body.fromFileWithPath toySniff ⟨[137, 80, 78, 71], 2⟩ s!!"a.txt" ⟨true, some 300, true⟩ = some b ∧ b.len = some 4 :=
  ⟨_, rfl, rfl⟩

/-- The media type is decided by the bytes the first read returns, from the position of the handle on. (Missing: the
beginning of the file, see `C79_violated_position`.) -/
theorem C79_type_partial (infer : List Byte → Option Str) (f : File) (path : Str) (run : FileRun) (k : Nat)
    (hk : run.read = some k) (b : Body (List Byte)) (hb : Body.fromFileWithPath infer f path run = some b) (m : Mime) :
    b.mime = some m ↔ Typed infer ((f.bytes.drop f.pos).take (min k 300)) path m := by
  obtain ⟨mo, rd, so⟩ := run
  unfold Body.fromFileWithPath peekMime at hb
  simp only at hk
  subst hk
  cases mo with
  | false => simp at hb
  | true =>
    cases so with
    | false => simp at hb
    | true =>
      simp only [if_true, Option.some.injEq] at hb
      subst hb
      simp only [Option.some.injEq]
      exact typed_of_sniff infer _ path _ rfl m

example : ((Body.fromFileWithPath toySniff ⟨[1, 137, 80, 71], 1⟩ s!!"a.txt" ⟨true, some 300, true⟩).bind Body.mime).map Mime.display =
    some s!!"image/png" := by decide +kernel

/-- For a handle at the beginning and a read that is not cut short it is the beginning of the file. -/
theorem C79_type_at_start_partial (infer : List Byte → Option Str) (bytes : List Byte) (path : Str) (run : FileRun)
    (k : Nat) (hk : run.read = some k) (hfull : min 300 bytes.length ≤ k) (b : Body (List Byte))
    (hb : Body.fromFileWithPath infer ⟨bytes, 0⟩ path run = some b) (m : Mime) :
    b.mime = some m ↔ Typed infer (bytes.take 300) path m := by
  rw [C79_type_partial infer ⟨bytes, 0⟩ path run k hk b hb m]
  have : (List.drop 0 bytes).take (min k 300) = bytes.take 300 := by
    rw [List.drop_zero]
    by_cases h : 300 ≤ k
    · rw [Nat.min_eq_right h]
    · rw [Nat.min_eq_left (by omega), List.take_of_length_le (by omega), List.take_of_length_le (by omega)]
  simp only [this]

example : ((Body.fromFileWithPath toySniff ⟨[1, 137, 80, 71], 0⟩ s!!"a.txt" ⟨true, some 4, true⟩).bind Body.mime) =
    some Mime.PLAIN := by decide +kernel

/-- `from_file` is the same without an extension. -/
theorem C79_from_file (infer : List Byte → Option Str) (f : File) (run : FileRun) :
    Body.fromFile infer f run = Body.fromFileWithPath infer f [] run ∧ guessExt [] = none := ⟨rfl, by decide +kernel⟩

example : guessExt s!!"a.txt" = some Mime.PLAIN := by decide +kernel

/-- `from_path` opens the file and stands at its beginning. -/
theorem C79_from_path (infer : List Byte → Option Str) (opened : Option (List Byte)) (path : Str) (run : FileRun) :
    (opened = none → Body.fromPath infer opened path run = none) ∧
      ∀ bytes, opened = some bytes → Body.fromPath infer opened path run = Body.fromFileWithPath infer ⟨bytes, 0⟩ path run := by
  constructor
  · rintro rfl; rfl
  · rintro bytes rfl; rfl

example : ((Body.fromPath toySniff (some [1, 2]) s!!"a.css" ⟨true, some 2, true⟩).bind Body.mime) = some Mime.CSS := by
  decide +kernel

/-- Once the handle stands at the end, the content of the file has no say in its type. -/
theorem C79_violated_position (infer : List Byte → Option Str) (f : File) (path : Str) (run : FileRun)
    (hp : f.bytes.length ≤ f.pos) (b b' : Body (List Byte)) (hb : Body.fromFileWithPath infer f path run = some b)
    (hb' : Body.fromFileWithPath infer ⟨[], 0⟩ path run = some b') : b.mime = b'.mime := by
  have hr : ∃ k, run.read = some k :=
    Option.ne_none_iff_exists'.mp ((C79_content infer f path run).1.mp ⟨b, hb⟩).2.1
  obtain ⟨k, hk⟩ := hr
  have h1 := C79_type_partial infer f path run k hk b hb
  have h2 := C79_type_partial infer ⟨[], 0⟩ path run k hk b' hb'
  have he : (f.bytes.drop f.pos).take (min k 300) = (([] : List Byte).drop 0).take (min k 300) := by
    rw [List.drop_of_length_le hp]; simp
  have hm : ∀ m, b.mime = some m ↔ b'.mime = some m := by
    intro m; rw [h1, h2, he]
  cases h : b.mime with
  | none =>
    cases h' : b'.mime with
    | none => rfl
    | some m => rw [(hm m).mpr h'] at h; cases h
  | some m => rw [(hm m).mp h]

/-- The same PNG, at its beginning, past its beginning, and when the first read returns one byte only. -/
example : ((Body.fromFile toySniff ⟨[137, 80, 78, 71], 0⟩ ⟨true, some 300, true⟩).bind Body.mime).map Mime.display =
      some s!!"image/png" ∧
    ((Body.fromFile toySniff ⟨[137, 80, 78, 71], 1⟩ ⟨true, some 300, true⟩).bind Body.mime).map Mime.display =
      some s!!"application/octet-stream" ∧
    ((Body.fromFile toySniff ⟨[137, 80, 78, 71], 0⟩ ⟨true, some 1, true⟩).bind Body.mime).map Mime.display =
      some s!!"application/octet-stream" := by
  decide +kernel

/-! ### Extensions of paths -/

theorem last_dot {s : Str} (h : '.' ∈ s) : ∃ a e, s = a ++ '.' :: e ∧ '.' ∉ e := by
  induction s with
  | nil => cases h
  | cons c s ih =>
    by_cases hs : '.' ∈ s
    · obtain ⟨a, e, rfl, he⟩ := ih hs
      exact ⟨c :: a, e, rfl, he⟩
    · have : '.' = c := by simpa [hs] using h
      exact ⟨[], s, by rw [this]; rfl, hs⟩

theorem split_concat (c : Char) (a b : Str) : split c (a ++ c :: b) = split c a ++ split c b := by
  induction a with
  | nil => simp [split]
  | cons x a ih =>
    rw [List.cons_append, split, split, ih]
    by_cases hx : x = c
    · simp [hx]
    · cases hs : split c a with
      | nil => exact absurd hs (split_ne_nil c a)
      | cons p ps => simp [hx]

theorem fileName_of {path dir name : Str} (h : PathNames path dir name) : fileName path = some name := by
  obtain ⟨rfl, hd, hs, h0, h1, h2⟩ := h
  have hl : (split '/' (dir ++ name)).filter (fun c => c ≠ [] ∧ c ≠ s!!".") =
      (split '/' (dir ++ name)).dropLast.filter (fun c => c ≠ [] ∧ c ≠ s!!".") ++ [name] := by
    have hsplit : ∃ pre, split '/' (dir ++ name) = pre ++ [name] := by
      rcases hd with rfl | ⟨d, rfl⟩
      · exact ⟨[], by rw [List.nil_append, split_of_not_mem hs]; rfl⟩
      · refine ⟨split '/' d, ?_⟩
        rw [List.append_assoc, List.singleton_append]
        rw [split_concat, split_of_not_mem hs]
    obtain ⟨pre, hp⟩ := hsplit
    rw [hp, List.dropLast_concat, List.filter_append]
    simp [h0, h1]
  unfold fileName
  rw [hl, List.getLast?_concat]
  simp [h2]

/-- The extension that counts is what follows the last dot of the name, unless the name begins with that dot. -/
theorem C79_extension {path dir name : Str} (h : PathNames path dir name) (ext : Str) :
    extension path = some ext ↔ HasExt name ext := by
  unfold extension
  rw [fileName_of h]
  simp only
  constructor
  · intro he
    by_cases hd : '.' ∈ name
    · obtain ⟨base, e, hn, hx⟩ := last_dot hd
      subst hn
      rw [split_concat, split_of_not_mem hx, List.reverse_append, List.reverse_singleton, List.singleton_append] at he
      cases hr : (split '.' base).reverse with
      | nil => exact absurd (List.reverse_eq_nil_iff.mp hr) (split_ne_nil _ _)
      | cons p ps =>
        rw [hr] at he
        simp only at he
        rw [← hr, List.reverse_reverse, join_split] at he
        split at he
        · cases he
        · cases he
          exact ⟨base, by assumption, by simp, hx⟩
    · rw [split_of_not_mem hd] at he
      simp at he
  · rintro ⟨base, hb, rfl, hx⟩
    rw [List.append_assoc, List.singleton_append, split_concat, split_of_not_mem hx, List.reverse_append,
      List.reverse_singleton, List.singleton_append]
    cases hr : (split '.' base).reverse with
    | nil => exact absurd (List.reverse_eq_nil_iff.mp hr) (split_ne_nil _ _)
    | cons p ps =>
      simp only
      rw [← hr, List.reverse_reverse, join_split, if_neg hb]

example : PathNames s!!"/a.b/c.tar.gz" s!!"/a.b/" s!!"c.tar.gz" ∧ HasExt s!!"c.tar.gz" s!!"gz" ∧
    extension s!!"/a.b/c.tar.gz" = some s!!"gz" ∧ extension s!!"/home/.bashrc" = none ∧ extension s!!"a.d/.." = none :=
  ⟨⟨rfl, .inr ⟨s!!"/a.b", rfl⟩, by decide, by decide, by decide, by decide⟩,
    ⟨s!!"c.tar", by decide, rfl, by decide⟩, by decide +kernel, by decide +kernel, by decide +kernel⟩

/-- The type guessed is the one of the table of extensions (C72). -/
theorem C79_guess {path dir name : Str} (h : PathNames path dir name) (m : Mime) :
    guessExt path = some m ↔ ∃ ext, HasExt name ext ∧ Mime.fromExtension ext = some m := by
  unfold guessExt
  rw [Option.bind_eq_some_iff]
  simp only [C79_extension h]

example : guessExt s!!"/var/index.html" = some Mime.HTML := by decide +kernel

end HT
