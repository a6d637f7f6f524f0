import Verif.Spec.Codings
import Verif.Props.Negotiate
import Verif.Props.Listed

/-!
C104: of the codings of a body the outermost is found.
-/

namespace HT

open Spec

theorem mem_trim {s : Str} {c : Char} (h : c ∈ s) (hc : isWs c = false) : c ∈ trim s := by
  obtain ⟨w, w', hs, h1, h2⟩ := trim_spec s
  rw [hs] at h
  rcases List.mem_append.mp h with h | h
  · rcases List.mem_append.mp h with h | h
    · rw [h1 c h] at hc; cases hc
    · exact h
  · rw [h2 c h] at hc; cases hc

/-- Reading one line. -/
structure LineReader {α : Type} (coding : Str → Option α) (table : List (Str × α)) : Prop where
  reads : ∀ v e, coding v = some e ↔ (trim v, e) ∈ table
  names : ∀ r ∈ table, ',' ∉ r.1 ∧ codingName r.1 = r.1 ∧ r.1 ≠ [] ∧ Token r.1
  table : CodingTable table

theorem content_reader : LineReader Encoding.fromStr contentCodings where
  reads v e := by
    rw [encoding_fromStr]
    cases e <;> simp [contentCodings, Encoding.display]
  names r hr := by
    have := (show ∀ r ∈ contentCodings, ',' ∉ r.1 ∧ codingName r.1 = r.1 ∧ r.1 ≠ [] by decide) r hr
    refine ⟨this.1, this.2.1, this.2.2, token_of_decide ?_⟩
    clear this
    revert r
    decide
  table := content_table

theorem transfer_reader : LineReader TEncoding.fromStr transferCodings where
  reads v e := by
    rw [tencoding_fromStr]
    cases e <;> simp [transferCodings, TEncoding.display]
  names r hr := by
    have := (show ∀ r ∈ transferCodings, ',' ∉ r.1 ∧ codingName r.1 = r.1 ∧ r.1 ≠ [] by decide) r hr
    refine ⟨this.1, this.2.1, this.2.2, token_of_decide ?_⟩
    clear this
    revert r
    decide
  table := transfer_table

/-- A line is read exactly if it is plain. -/
theorem line_read {α : Type} {coding : Str → Option α} {table : List (Str × α)} (hr : LineReader coding table)
    {v : Str} {m : List (Option Str)} (h : Listed CodingText [v] m) (e : α) :
    coding v = some e ↔ ∃ n, m = [some n] ∧ (n, e) ∈ table := by
  rw [hr.reads]
  obtain ⟨pss, h1, h2, h3⟩ := h
  cases pss with
  | nil => cases h2
  | cons ps pss =>
    cases pss with
    | cons _ _ => cases h2
    | nil =>
      simp only [List.map_cons, List.map_nil, List.cons.injEq, and_true] at h2
      rw [List.flatten_cons, List.flatten_nil, List.append_nil] at h3
      cases ps with
      | nil => exact absurd rfl (h1 [] (by simp))
      | cons p ps =>
        cases ps with
        | nil =>
          cases h3 with
          | @cons _ x _ _ hp hps =>
            cases hps
            obtain ⟨a, t, b, ha, hb, rfl, ht⟩ := hp
            have hv : v = a ++ (t ++ b) := by rw [h2]; rfl
            have htr : Trimmed t := by
              cases x with
              | none => rw [show t = [] from ht]; decide
              | some n => exact (token_no_comma ht.1).2
            rw [hv, ← List.append_assoc, trim_surround (ows_ws ha) (ows_ws hb) htr]
            cases x with
            | none =>
              constructor
              · intro hm
                have : t = [] := ht
                subst this
                exact absurd rfl (hr.names _ hm).2.2.1
              · rintro ⟨n, hn, -⟩; cases hn
            | some n =>
              rw [ht.2]
              simp
        | cons q qs =>
          cases h3 with
          | cons hp hps =>
            cases hps with
            | cons hq hqs =>
              constructor
              · intro hm
                refine absurd ?_ (hr.names _ hm).1
                refine mem_trim ?_ (by decide)
                rw [h2]
                simp [join]
              · rintro ⟨n, hn, -⟩; cases hn


theorem coding_lines {α : Type} {name : HeaderName} {coding : Str → Option α} {h : Headers} {vs : List Str}
    (hg : h.get name = some vs) :
    readCoding name coding h = (Res.unwrap (vs.reverse.findSome? coding)).map some := by
  unfold readCoding
  rw [hg]
  simp only
  rw [iter_eq, codingLoop_eq, Option.or_none]

theorem last_line {α : Type} {coding : Str → Option α} {table : List (Str × α)} (hr : LineReader coding table)
    {name : HeaderName} {h : Headers} {vs : List Str} {v : Str} {ms : List (List (Option Str))} {m : List (Option Str)}
    (hg : h.get name = some (vs ++ [v])) (_hl : CodingLines vs ms) (hm : Listed CodingText [v] m) :
    (∀ n e, m = [some n] → (n, e) ∈ table →
      readCoding name coding h = .ok (some e) ∧ Outermost table (ms ++ [m]) e) ∧
    (¬ PlainLine table m → vs = [] → readCoding name coding h = .panic) ∧
    (¬ PlainLine table m → ∀ h' : Headers, h'.get name = some vs → readCoding name coding h = readCoding name coding h') := by
  rw [coding_lines hg]
  simp only [List.reverse_append, List.reverse_cons, List.reverse_nil, List.nil_append, List.singleton_append,
    List.findSome?_cons]
  refine ⟨fun n e hn he => ?_, fun hp hv => ?_, fun hp h' hg' => ?_⟩
  · rw [(line_read hr hm e).mpr ⟨n, hn, he⟩]
    refine ⟨rfl, n, ?_, ?_⟩
    · rw [hn]; simp
    · rw [(hr.names _ he).2.1]; exact he
  · have : coding v = none := by
      cases hc : coding v with
      | none => rfl
      | some e => obtain ⟨n, h1, h2⟩ := (line_read hr hm e).mp hc; exact absurd ⟨n, e, h1, h2⟩ hp
    rw [this, hv]; rfl
  · have : coding v = none := by
      cases hc : coding v with
      | none => rfl
      | some e => obtain ⟨n, h1, h2⟩ := (line_read hr hm e).mp hc; exact absurd ⟨n, e, h1, h2⟩ hp
    rw [this, coding_lines hg']

/-- C104: if the last line names one known coding in small letters, the outermost coding is read, whatever the lines
before. Missing: the other last lines, which `C104_violated_skipped` shows to be passed over. -/
theorem C104_outermost_partial (h : Headers) (vs : List Str) (v n : Str) (ms : List (List (Option Str)))
    (hl : CodingLines vs ms) (hm : Listed CodingText [v] [some n]) :
    (∀ e, h.get s!!"content-encoding" = some (vs ++ [v]) → (n, e) ∈ contentCodings →
      readCoding ContentEncoding.name Encoding.fromStr h = .ok (some e) ∧ Outermost contentCodings (ms ++ [[some n]]) e) ∧
    (∀ e, h.get s!!"transfer-encoding" = some (vs ++ [v]) → (n, e) ∈ transferCodings →
      readCoding TransferEncoding.name TEncoding.fromStr h = .ok (some e) ∧
        Outermost transferCodings (ms ++ [[some n]]) e) :=
  ⟨fun e hg he => (last_line content_reader hg hl hm).1 n e rfl he,
    fun e hg he => (last_line transfer_reader hg hl hm).1 n e rfl he⟩

theorem coding_one {n : Str} (h : Token n) : Listed CodingText [n] [some n] := listed_one ⟨h, rfl⟩

theorem coding_two {n k : Str} (hn : Token n) (hk : Token k) : Listed CodingText [n ++ s!!", " ++ k] [some n, some k] :=
  ⟨[[n, s!!" " ++ k]], by simp, by simp [join],
    .cons ⟨[], n, [], by simp [Ows], by simp [Ows], by simp, hn, rfl⟩
      (.cons ⟨s!!" ", k, [], by simp [Ows], by simp [Ows], by simp, hk, rfl⟩ .nil)⟩

example : CodingLines [s!!"x , GZIP", s!!"br,"] [[some s!!"x", some s!!"GZIP"], [some s!!"br", none]] ∧
    Outermost contentCodings [[some s!!"x", some s!!"GZIP"], [some s!!"br", none]] .brotli ∧
    Outermost contentCodings [[some s!!"x", some s!!"X-GZIP"]] .gzip := by
  refine ⟨.cons ⟨[[s!!"x ", s!!" GZIP"]], by simp, rfl, .cons ⟨[], s!!"x", s!!" ", by simp [Ows], by simp [Ows], rfl, ?_, rfl⟩
    (.cons ⟨s!!" ", s!!"GZIP", [], by simp [Ows], by simp [Ows], rfl, ?_, rfl⟩ .nil)⟩
    (.cons (listed_trailing (P := CodingText) (t := s!!"br") ⟨?_, rfl⟩) .nil), ⟨s!!"br", rfl, by decide⟩, ⟨s!!"X-GZIP", rfl, by decide⟩⟩ <;>
  exact token_of_decide (by decide)

/-- C104 is violated by every last line that is anything else, one with several codings, an unknown coding, capitals or
an empty element: it is passed over as if it were not there, and if it is the only one, reading panics. -/
theorem C104_violated_skipped (h : Headers) (vs : List Str) (v : Str) (ms : List (List (Option Str)))
    (m : List (Option Str)) (hl : CodingLines vs ms) (hm : Listed CodingText [v] m) :
    (h.get s!!"content-encoding" = some (vs ++ [v]) → ¬ PlainLine contentCodings m →
      (vs = [] → readCoding ContentEncoding.name Encoding.fromStr h = .panic) ∧
      ∀ h' : Headers, h'.get s!!"content-encoding" = some vs →
        readCoding ContentEncoding.name Encoding.fromStr h = readCoding ContentEncoding.name Encoding.fromStr h') ∧
    (h.get s!!"transfer-encoding" = some (vs ++ [v]) → ¬ PlainLine transferCodings m →
      (vs = [] → readCoding TransferEncoding.name TEncoding.fromStr h = .panic) ∧
      ∀ h' : Headers, h'.get s!!"transfer-encoding" = some vs →
        readCoding TransferEncoding.name TEncoding.fromStr h = readCoding TransferEncoding.name TEncoding.fromStr h') :=
  ⟨fun hg hp => ⟨(last_line content_reader hg hl hm).2.1 hp, (last_line content_reader hg hl hm).2.2 hp⟩,
    fun hg hp => ⟨(last_line transfer_reader hg hl hm).2.1 hp, (last_line transfer_reader hg hl hm).2.2 hp⟩⟩

example : ¬ PlainLine transferCodings [some s!!"gzip", some s!!"chunked"] ∧ ¬ PlainLine transferCodings [some s!!"Chunked"] ∧
    ¬ PlainLine contentCodings [some s!!"x-gzip"] ∧ ¬ PlainLine contentCodings [some s!!"br", none] := by
  refine ⟨?_, ?_, ?_, ?_⟩ <;> rintro ⟨n, e, h1, h2⟩
  · cases h1
  · simp only [List.cons.injEq, Option.some.injEq, and_true] at h1
    subst h1
    cases e <;> simp [transferCodings] at h2
  · simp only [List.cons.injEq, Option.some.injEq, and_true] at h1
    subst h1
    cases e <;> simp [contentCodings] at h2
  · cases h1

/-- C104 is violated: a body that is chunked after any other coding is not seen to be chunked, although a lone
coding before is seen. -/
theorem C104_violated_chunked (h : Headers) (n k : Str) (e : TEncoding) (hn : (n, e) ∈ transferCodings)
    (hne : e ≠ .chunked) (hk : Token k) (hg : h.get s!!"transfer-encoding" = some [n, k ++ s!!", chunked"]) :
    CodingLines [n, k ++ s!!", chunked"] [[some n], [some k, some s!!"chunked"]] ∧
    Outermost transferCodings [[some n], [some k, some s!!"chunked"]] .chunked ∧
    ¬ Outermost transferCodings [[some n], [some k, some s!!"chunked"]] e ∧
    readCoding TransferEncoding.name TEncoding.fromStr h = .ok (some e) := by
  have ht := (transfer_reader.names _ hn).2.2.2
  have h1 : CodingLines [n] [[some n]] := .cons (coding_one ht) .nil
  have h2 : Listed CodingText [k ++ s!!", chunked"] [some k, some s!!"chunked"] := by
    have := coding_two hk (k := s!!"chunked") (token_of_decide (by decide))
    rwa [List.append_assoc] at this
  refine ⟨.cons (coding_one ht) (.cons h2 .nil), ⟨s!!"chunked", rfl, by decide⟩, ?_, ?_⟩
  · rintro ⟨x, hx, he⟩
    have hx : some s!!"chunked" = some x := hx
    injection hx with hx
    subst hx
    have : codingName s!!"chunked" = s!!"chunked" := by decide
    rw [this] at he
    cases e <;> simp [transferCodings] at he
    exact hne rfl
  · have hs := (C104_violated_skipped h [n] _ _ _ h1 h2).2 hg (by rintro ⟨_, _, h3, -⟩; cases h3)
    rw [hs.2 [(s!!"transfer-encoding", [n])] (by simp [Headers.get, FMap.get])]
    exact ((C104_outermost_partial [(s!!"transfer-encoding", [n])] [] n n [] .nil (coding_one ht)).2 e
      (by simp [Headers.get, FMap.get]) hn).1

example : readCoding TransferEncoding.name TEncoding.fromStr [(s!!"transfer-encoding", [s!!"gzip", s!!"identity, chunked"])] =
    .ok (some .gzip) := by decide +kernel

end HT
