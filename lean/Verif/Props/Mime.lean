import Verif.Lemmas.Mime
import Verif.Props.Cache

/-! Media types: C22–C25, and the media type part of C04. -/

namespace HT
open Spec Mime

/-! ### C23: parsed media types are well formed -/

theorem noUpper_token_lower {s : Str} (h1 : s ≠ []) (h2 : s.all isToken = true) :
    Token (lower s) ∧ NoUpper (lower s) :=
  ⟨token_lower (token_of h1 h2), noUpper_lower s⟩

theorem parse_cases (s : Str) : (∃ m, Mime.parse s = .ok m ∧ MimeWF m) ∨ Mime.parse s = .err 500 := by
  unfold Mime.parse
  simp only
  generalize trimWs s = i
  rcases collect_cases ['/'] i with ⟨h, -⟩ | ⟨a, c, b, -, hc, -, h⟩
  · rw [h]
    right
    simp only [if_true]
    split
    · rfl
    · split <;> rfl
  · rw [h]
    simp only [List.mem_cons, List.not_mem_nil, or_false] at hc
    subst hc
    simp only [reduceCtorEq, if_false]
    by_cases ha : a = []
    · right; rw [if_pos ha]
    · rw [if_neg ha]
      by_cases hat : a.all isToken = true
      · rw [if_neg (by simp [hat]), dropOne_ascii (by decide)]
        simp only [Res.bind_ok]
        generalize htx : trimEndWs (collect [';'] b).1 = t
        by_cases ht : t = []
        · right; rw [if_pos ht]
        · rw [if_neg ht]
          by_cases htt : t.all isToken = true
          · rw [if_neg (by simp [htt])]
            obtain ⟨acc, h1, h2⟩ := paramLoop_ok (input := (collect [';'] b).2) (acc := ([], false))
              (collect_semi_atSemi b) ⟨by simp, by simp, by simp, by simp⟩
            rw [h1]
            left
            refine ⟨_, rfl, ?_⟩
            exact ⟨noUpper_token_lower ha hat, noUpper_token_lower ht htt, by simp, h2.names, h2.nodup,
              h2.values, h2.charset⟩
          · right; rw [if_pos (by simp [htt])]
      · right; rw [if_pos (by simp [hat])]

/-- Whatever parses is a well-formed media type. -/
theorem C23_wf {s : Str} {m : Mime} (h : Mime.parse s = .ok m) : MimeWF m := by
  rcases parse_cases s with ⟨m', h1, h2⟩ | h1
  · rw [h] at h1
    cases h1
    exact h2
  · rw [h] at h1
    cases h1

example : Mime.parse s!!"Text/HTML;Charset=UTF-8" = .ok ⟨s!!"text/html", s!!"text", s!!"html", false, [(s!!"charset", s!!"UTF-8")]⟩ := by
  decide +kernel

/-- Parsing never panics; failures carry status 500. -/
theorem C23_never_panics (s : Str) : (Mime.parse s).Clean 500 := by
  rcases parse_cases s with ⟨m', h1, -⟩ | h1
  · exact .inl ⟨m', h1⟩
  · exact .inr h1

example : Mime.parse s!!" Text/HTML ; Charset=utf-8; A=\"x\\\"y\" ;a=z;=q; b" =
    .ok ⟨s!!"text/html", s!!"text", s!!"html", true, [(s!!"a", s!!"x\"y")]⟩ := by decide +kernel
example : Mime.parse [Char.ofNat 233, '/', 'a'] = .err 500 := by decide +kernel
example : Mime.parse ('a' :: '/' :: 'b' :: ';' :: [Char.ofNat 233]) =
    .ok ⟨s!!"a/b", s!!"a", s!!"b", false, []⟩ := by decide +kernel

/-! ### C22: printing and parsing -/

theorem displayParam_text {e : Str × Str} {rest : Str} {ps : List (Str × Str)} (hn : Token e.1)
    (hv : ∀ c ∈ e.2, QuotedChar c) (h : ParamsText rest ps) : ParamsText (displayParam e ++ rest) (e :: ps) := by
  obtain ⟨n, v⟩ := e
  have w : HttpWs [] := by intro c hc; cases hc
  unfold displayParam
  by_cases ht : v.all isToken = true ∧ v ≠ []
  · rw [if_pos ht]
    have := ParamsText.cons (raw := v) (v := v) w hn (.inl ⟨rfl, token_of ht.2 ht.1⟩) w h
    simpa using this
  · rw [if_neg ht]
    have := ParamsText.cons (raw := '"' :: (escape v ++ ['"'])) (v := v) w hn
      (.inr ⟨escape v, rfl, escaped_escape v, hv⟩) w h
    simpa using this

theorem displayParams_text {ps : List (Str × Str)} (hn : ∀ e ∈ ps, Token e.1)
    (hv : ∀ e ∈ ps, ∀ c ∈ e.2, QuotedChar c) : ParamsText (ps.flatMap displayParam) ps := by
  induction ps with
  | nil => exact .nil
  | cons e ps ih =>
    rw [List.flatMap_cons]
    exact displayParam_text (hn e (by simp)) (hv e (by simp))
      (ih (fun e he => hn e (by simp [he])) (fun e he => hv e (by simp [he])))

theorem firstOf_nodup {ps : List (Str × Str)} (h : (ps.map (·.1)).Nodup) : firstOf ps = ps := by
  induction ps with
  | nil => rfl
  | cons p ps ih =>
    rw [List.map_cons, List.nodup_cons] at h
    rw [firstOf, ih h.2, List.filter_eq_self.mpr]
    intro e he
    rw [decide_eq_true_eq]
    intro h1
    exact h.1 (List.mem_map.mpr ⟨e, he, h1⟩)

theorem token_charset : Token s!!"charset" := token_of (by decide) (by decide)
theorem token_utf8 : Token s!!"utf-8" := token_of (by decide) (by decide)

/-- The parameters as printed, `charset=utf-8` first. -/
def allParams (m : Mime) : List (Str × Str) :=
  (if m.isUtf8 = true then [(s!!"charset", s!!"utf-8")] else []) ++ m.params

/-- The printed parameters. -/
def displayParams (m : Mime) : Str :=
  (if m.isUtf8 then s!!";charset=utf-8" else []) ++ m.params.flatMap displayParam

theorem display_text {m : Mime} (h : MimeWF m) : MediaText m.display m.basetype m.subtype (allParams m) := by
  have w : HttpWs [] := by intro c hc; cases hc
  refine ⟨[], [], displayParams m, w, w, h.base.1, h.sub.1, ?_, ?_⟩
  · have hps := displayParams_text (fun e he => (h.names e he).1) h.values
    unfold displayParams allParams
    by_cases hu : m.isUtf8 = true
    · rw [if_pos hu, if_pos hu]
      have := ParamsText.cons (w1 := []) (w2 := []) w token_charset (.inl ⟨rfl, token_utf8⟩) w hps
      simpa using this
    · rw [if_neg hu, if_neg hu]
      exact hps
  · unfold Mime.display displayParams
    rw [h.essence]
    simp

/-- Printing a media type and parsing gives it back exactly when it is well formed. -/
theorem C22_round_trip_iff (m : Mime) : Mime.parse m.display = .ok m ↔ MimeWF m := by
  constructor
  · exact C23_wf
  · intro h
    have hlow : ∀ e ∈ allParams m, (lower e.1, e.2) = e := by
      intro e he
      unfold allParams at he
      rcases List.mem_append.mp he with he | he
      · by_cases hu : m.isUtf8 = true
        · rw [if_pos hu] at he
          simp at he
          subst he
          decide
        · rw [if_neg hu] at he
          cases he
      · rw [lower_of_noUpper (h.names e he).2]
    have hmap : (allParams m).map (fun e => (lower e.1, e.2)) = allParams m := by
      conv => rhs; rw [← List.map_id (allParams m)]
      exact List.map_congr_left hlow
    have hfold := foldl_addParam (allParams m) [] false (by
      intro e he
      unfold allParams at he
      rcases List.mem_append.mp he with he | he
      · by_cases hu : m.isUtf8 = true
        · rw [if_pos hu] at he
          simp at he
          subst he
          refine ⟨token_charset, fun c hc => ?_⟩
          have := tchar_nat (token_utf8.2 c hc)
          right
          omega
        · rw [if_neg hu] at he
          cases he
      · exact ⟨(h.names e he).1, h.values e he⟩)
    have hne : ∀ e ∈ m.params, e ≠ (s!!"charset", s!!"utf-8") := by
      rintro e he rfl
      exact h.charset he
    have hfil : (allParams m).filter (fun e => e ≠ (s!!"charset", s!!"utf-8")) = m.params := by
      unfold allParams
      rw [List.filter_append]
      have hself : m.params.filter (fun e => e ≠ (s!!"charset", s!!"utf-8")) = m.params := by
        rw [List.filter_eq_self]
        intro e he
        rw [decide_eq_true_eq]
        exact hne e he
      rw [hself]
      by_cases hu : m.isUtf8 = true
      · rw [if_pos hu]; simp
      · rw [if_neg hu]; simp
    have hany : (allParams m).any (fun e => e = (s!!"charset", s!!"utf-8")) = m.isUtf8 := by
      unfold allParams
      have hself : m.params.any (fun e => e = (s!!"charset", s!!"utf-8")) = false := by
        rw [List.any_eq_false]
        intro e he
        rw [decide_eq_true_eq]
        exact hne e he
      rw [List.any_append, hself, Bool.or_false]
      cases m.isUtf8 <;> simp
    have := parse_text (display_text h)
    rw [hmap, hfold, hfil, hany, firstOf_nodup h.nodup] at this
    rw [this, lower_of_noUpper h.base.2, lower_of_noUpper h.sub.2, ← h.essence]
    simp

example : Mime.parse (Mime.mk s!!"a/b" s!!"a" s!!"b" false [(s!!"c", s!!"d e")]).display =
    .ok (Mime.mk s!!"a/b" s!!"a" s!!"b" false [(s!!"c", s!!"d e")]) := by decide +kernel

/-- Every string that parses: print and parse again gives the same media type. -/
theorem C22_round_trip {s : Str} {m : Mime} (h : Mime.parse s = .ok m) : Mime.parse m.display = .ok m :=
  (C22_round_trip_iff m).mpr (C23_wf h)

example : Mime.parse s!!" A/b ; C=\"d\\\"\" " = .ok (Mime.mk s!!"a/b" s!!"a" s!!"b" false [(s!!"c", s!!"d\"")]) := by decide +kernel

/-- Printing is idempotent: print, parse, print gives the same text. -/
theorem C22_print_idempotent {s : Str} {m m' : Mime} (h : Mime.parse s = .ok m)
    (h' : Mime.parse m.display = .ok m') : m'.display = m.display := by
  rw [C22_round_trip h] at h'
  cases h'
  rfl

example : ∃ m, Mime.parse s!!"a/B; X=\"1 \\\\ 2\";Charset=utf-8" = .ok m ∧
    m.display = s!!"a/b;charset=utf-8;x=\"1 \\\\ 2\"" :=
  ⟨⟨s!!"a/b", s!!"a", s!!"b", true, [(s!!"x", s!!"1 \\ 2")]⟩, by decide +kernel, by decide⟩

/-- All named media types are well formed, so they survive the round trip too. -/
theorem C22_constants : ∀ m ∈ Mime.constants, Mime.parse m.display = .ok m := by
  decide +kernel

example : Mime.HTML ∈ Mime.constants := by decide

/-! ### C24: parameters by name -/

theorem find?_congr_mem {α : Type} {p q : α → Bool} {l : List α} (h : ∀ e ∈ l, p e = q e) :
    l.find? p = l.find? q := by
  induction l with
  | nil => rfl
  | cons x l ih =>
    rw [List.find?_cons, List.find?_cons, h x (by simp), ih (fun e he => h e (by simp [he]))]

theorem find?_firstOf (n : Str) (ps : List (Str × Str)) :
    (firstOf ps).find? (fun e => e.1 == n) = ps.find? (fun e => e.1 == n) := by
  induction ps with
  | nil => rfl
  | cons p ps ih =>
    rw [firstOf, List.find?_cons, List.find?_cons]
    by_cases h : p.1 = n
    · simp [h]
    · rw [show (p.1 == n) = false by simp [h]]
      simp only
      rw [← ih, List.find?_filter]
      congr 1
      funext e
      by_cases he : e.1 = n
      · simp [he, Ne.symm h]
      · simp [he]

theorem valueText_quoted {raw v : Str} (h : ValueText raw v) : ∀ c ∈ v, QuotedChar c := by
  rcases h with ⟨rfl, ht⟩ | ⟨e, -, -, h⟩
  · intro c hc
    have := tchar_nat (ht.2 c hc)
    right; omega
  · exact h

theorem paramsText_legal {t : Str} {ps : List (Str × Str)} (h : ParamsText t ps) :
    ∀ e ∈ ps, Token e.1 ∧ ∀ c ∈ e.2, QuotedChar c := by
  induction h with
  | nil => simp
  | cons _ hn hv _ _ ih =>
    intro e he
    rcases List.mem_cons.mp he with rfl | he
    · exact ⟨hn, valueText_quoted hv⟩
    · exact ih e he

/-- Some parameter, as written, is `charset=utf-8`. -/
def hasUtf8 (ps : List (Str × Str)) : Bool := ps.any fun e => sameName e.1 s!!"charset" && e.2 == s!!"utf-8"

/-- What parsing a text of the grammar gives: lowercase type and subtype, the utf-8 flag, and the first
parameter of each lowercase name among those that are not `charset=utf-8`, in order. -/
theorem C24_parse_text {s base sub : Str} {ps : List (Str × Str)} (h : MediaText s base sub ps) :
    Mime.parse s = .ok
      { essence := lower base ++ '/' :: lower sub
        basetype := lower base
        subtype := lower sub
        isUtf8 := hasUtf8 ps
        params := firstOf ((ps.map fun e => (lower e.1, e.2)).filter fun e => e ≠ (s!!"charset", s!!"utf-8")) } := by
  rw [parse_text h]
  obtain ⟨w1, w2, pt, -, -, -, -, hp, -⟩ := h
  have hl := paramsText_legal hp
  rw [foldl_addParam]
  · have : ((ps.map fun e => (lower e.1, e.2)).any fun e => e = (s!!"charset", s!!"utf-8")) = hasUtf8 ps := by
      unfold hasUtf8
      rw [List.any_map, Bool.eq_iff_iff]
      simp only [List.any_eq_true, Function.comp, decide_eq_true_eq, Bool.and_eq_true, beq_iff_eq]
      constructor
      · rintro ⟨e, he, h1⟩
        rw [Prod.mk.injEq] at h1
        exact ⟨e, he, (sameName_low (token_ascii (hl e he).1) (by decide)).mpr h1.1, h1.2⟩
      · rintro ⟨e, he, h1, h2⟩
        refine ⟨e, he, ?_⟩
        rw [Prod.mk.injEq]
        exact ⟨(sameName_low (token_ascii (hl e he).1) (by decide)).mp h1, h2⟩
    rw [this]
    simp
  · intro e he
    rw [List.mem_map] at he
    obtain ⟨e', he', rfl⟩ := he
    exact ⟨token_lower (hl e' he').1, (hl e' he').2⟩

example : Mime.parse s!!"A/B;C=D;c=E" = .ok (Mime.mk s!!"a/b" s!!"a" s!!"b" false [(s!!"c", s!!"D")]) := by decide +kernel

/-- Looking a parameter up by name, whatever the case of the letters: the first parameter of that name as
written, except that a `charset=utf-8` anywhere wins over other charsets. -/
theorem C24_lookup_partial {s base sub : Str} {ps : List (Str × Str)} (h : MediaText s base sub ps) (n : Str)
    (hn : Ascii n) :
    ∃ m, Mime.parse s = .ok m ∧
      m.paramStr n = .ok (if sameName n s!!"charset" = true ∧ hasUtf8 ps = true then some s!!"utf-8"
        else firstValue ps n) := by
  refine ⟨_, C24_parse_text h, ?_⟩
  obtain ⟨w1, w2, pt, -, -, -, -, hp, -⟩ := h
  have hl := paramsText_legal hp
  have hasc : isAscii n = true := isAscii_iff.mpr hn
  unfold Mime.paramStr paramName
  rw [if_pos hasc]
  simp only [Res.map_ok]
  congr 1
  unfold Mime.param
  simp only
  have hcs : sameName n s!!"charset" = true ↔ lower n = s!!"charset" := sameName_low hasc (by decide)
  by_cases hc : lower n = s!!"charset" ∧ hasUtf8 ps = true
  · rw [if_pos hc, if_pos ⟨hcs.mpr hc.1, hc.2⟩]
  · rw [if_neg hc, if_neg (fun h => hc ⟨hcs.mp h.1, h.2⟩), find?_firstOf]
    unfold firstValue
    rw [List.find?_filter, List.find?_map]
    rw [Option.map_map]
    rw [find?_congr_mem (q := fun e => sameName e.1 n)]
    · rfl
    · intro e he
      rw [Bool.eq_iff_iff]
      simp only [Function.comp, decide_eq_true_eq, beq_iff_eq]
      rw [sameName_iff]
      simp only [hasc, token_ascii (hl e he).1, true_and]
      constructor
      · exact fun h => h.2
      · intro h1
        refine ⟨?_, h1⟩
        intro h2
        rw [Prod.mk.injEq] at h2
        apply hc
        refine ⟨by rw [← h1]; exact h2.1, ?_⟩
        unfold hasUtf8
        rw [List.any_eq_true]
        refine ⟨e, he, ?_⟩
        rw [Bool.and_eq_true, beq_iff_eq]
        exact ⟨(sameName_low (token_ascii (hl e he).1) (by decide)).mpr h2.1, h2.2⟩

example : (Mime.parse s!!"a/b;c=D").bind (fun m => m.paramStr s!!"C") = .ok (some s!!"D") := by decide +kernel

/-- Without two different charsets, lookup returns the first occurrence. -/
theorem C24_lookup_first_partial {s base sub : Str} {ps : List (Str × Str)} (h : MediaText s base sub ps) (n : Str)
    (hn : Ascii n) (hcs : hasUtf8 ps = true → firstValue ps s!!"charset" = some s!!"utf-8") :
    ∃ m, Mime.parse s = .ok m ∧ m.paramStr n = .ok (firstValue ps n) := by
  obtain ⟨m, h1, h2⟩ := C24_lookup_partial h n hn
  refine ⟨m, h1, ?_⟩
  rw [h2]
  congr 1
  split
  · rename_i hc
    rw [← hcs hc.2]
    unfold firstValue
    congr 1
    apply find?_congr_mem
    intro e _
    rw [Bool.eq_iff_iff, sameName_iff, sameName_iff]
    have hx := (sameName_iff n s!!"charset").mp hc.1
    rw [hx.2.2]
    simp [hx.1, hx.2.1]
  · rfl

/-- A text of the grammar, with mixed case, repeated names, an escape and white space. -/
example : MediaText s!!"Text/HTML ;A=1; charset=utf-8;a=\"2\\\"\"" s!!"Text" s!!"HTML"
    [(s!!"A", s!!"1"), (s!!"charset", s!!"utf-8"), (s!!"a", s!!"2\"")] := by
  refine ⟨[], s!!" ", s!!";A=1; charset=utf-8;a=\"2\\\"\"", (by intro c hc; cases hc), (by unfold HttpWs; decide),
    token_of (by decide) (by decide), token_of (by decide) (by decide), ?_, by decide⟩
  refine ParamsText.cons (w1 := []) (n := s!!"A") (raw := s!!"1") (v := s!!"1") (w2 := [])
    (rest := s!!"; charset=utf-8;a=\"2\\\"\"") (by unfold HttpWs; decide) (token_of (by decide) (by decide))
    (.inl ⟨rfl, token_of (by decide) (by decide)⟩) (by unfold HttpWs; decide) ?_
  refine ParamsText.cons (w1 := s!!" ") (n := s!!"charset") (raw := s!!"utf-8") (v := s!!"utf-8") (w2 := [])
    (rest := s!!";a=\"2\\\"\"") (by unfold HttpWs; decide) (token_of (by decide) (by decide))
    (.inl ⟨rfl, token_of (by decide) (by decide)⟩) (by unfold HttpWs; decide) ?_
  refine ParamsText.cons (w1 := []) (n := s!!"a") (raw := s!!"\"2\\\"\"") (v := s!!"2\"") (w2 := [])
    (rest := []) (by unfold HttpWs; decide) (token_of (by decide) (by decide))
    (.inr ⟨s!!"2\\\"", rfl, .plain (by decide) (by decide) (.pair .nil), ?_⟩) (by unfold HttpWs; decide) .nil
  unfold QuotedChar
  decide

/-- The first occurrence does not win when another charset comes before `charset=utf-8`. -/
theorem C24_violated_lookup : ∃ (m : Mime), Mime.parse s!!"text/html;charset=gbk;charset=utf-8" = .ok m ∧
    m.paramStr s!!"charset" = .ok (some s!!"utf-8") :=
  ⟨⟨s!!"text/html", s!!"text", s!!"html", true, [(s!!"charset", s!!"gbk")]⟩, by decide +kernel, by decide⟩

/-- A parameter name given as a string must be ASCII: otherwise the call panics. -/
theorem C24_name_panics_iff (m : Mime) (n : Str) : m.paramStr n = .panic ↔ ¬ Ascii n := by
  unfold Mime.paramStr paramName
  have hiff : isAscii n = true ↔ Ascii n := isAscii_iff
  rw [← hiff]
  by_cases h : isAscii n = true
  · rw [if_pos h]; simp [h]
  · rw [if_neg h]; simp [h]

example : ¬ Ascii [Char.ofNat 233] := by decide

theorem find?_of_nodup {ps : List (Str × Str)} (h : (ps.map (·.1)).Nodup) {n v : Str} :
    ((ps.find? fun e => e.1 == n).map (·.2)) = some v ↔ (n, v) ∈ ps := by
  induction ps with
  | nil => simp
  | cons p ps ih =>
    rw [List.map_cons, List.nodup_cons] at h
    rw [List.find?_cons]
    by_cases hp : p.1 = n
    · rw [show (p.1 == n) = true by simp [hp]]
      simp only [Option.map_some, Option.some.injEq, List.mem_cons]
      constructor
      · rintro rfl
        left
        rw [← hp]
      · rintro (rfl | hm)
        · rfl
        · exact absurd (List.mem_map.mpr ⟨(n, v), hm, hp.symm⟩) h.1
    · rw [show (p.1 == n) = false by simp [hp]]
      simp only [List.mem_cons]
      rw [ih h.2]
      constructor
      · exact .inr
      · rintro (rfl | h)
        · exact absurd rfl hp
        · exact h

theorem find?_eraseP_self {ps : List (Str × Str)} (h : (ps.map (·.1)).Nodup) (n : Str) :
    (ps.eraseP fun e => e.1 == n).find? (fun e => e.1 == n) = none := by
  induction ps with
  | nil => rfl
  | cons p ps ih =>
    rw [List.map_cons, List.nodup_cons] at h
    rw [List.eraseP_cons]
    by_cases hp : p.1 = n
    · rw [show (p.1 == n) = true by simp [hp]]
      simp only [cond_true]
      rw [List.find?_eq_none]
      intro e he
      simp only [beq_iff_eq]
      intro h1
      exact h.1 (List.mem_map.mpr ⟨e, he, by rw [h1, hp]⟩)
    · rw [show (p.1 == n) = false by simp [hp]]
      simp only [cond_false]
      rw [List.find?_cons, show (p.1 == n) = false by simp [hp]]
      exact ih h.2

theorem find?_eraseP_ne (ps : List (Str × Str)) {n k : Str} (hk : k ≠ n) :
    (ps.eraseP fun e => e.1 == n).find? (fun e => e.1 == k) = ps.find? (fun e => e.1 == k) := by
  induction ps with
  | nil => rfl
  | cons p ps ih =>
    rw [List.eraseP_cons]
    by_cases hp : p.1 = n
    · rw [show (p.1 == n) = true by simp [hp]]
      simp only [cond_true]
      rw [List.find?_cons, show (p.1 == k) = false by simp [hp, Ne.symm hk]]
    · rw [show (p.1 == n) = false by simp [hp]]
      simp only [cond_false]
      rw [List.find?_cons, List.find?_cons, ih]

/-- The media type has one charset only. -/
def OneCharset (m : Mime) : Prop := ¬ (m.isUtf8 = true ∧ s!!"charset" ∈ m.params.map (·.1))

instance (m : Mime) : Decidable (OneCharset m) := by unfold OneCharset; infer_instance

/-- Removal returns what lookup found, makes the name absent, leaves every other parameter, type and subtype,
and the result is again well formed. -/
theorem C24_remove_partial {m : Mime} (h : MimeWF m) (hc : OneCharset m) (n : Str) :
    (m.removeParam n).1 = m.param n ∧ (m.removeParam n).2.param n = none ∧
      (∀ k, k ≠ n → (m.removeParam n).2.param k = m.param k) ∧
      (m.removeParam n).2.essence = m.essence ∧ MimeWF (m.removeParam n).2 := by
  unfold Mime.removeParam
  by_cases hu : n = s!!"charset" ∧ m.isUtf8 = true
  · rw [if_pos hu]
    obtain ⟨rfl, hu⟩ := hu
    refine ⟨?_, ?_, ?_, rfl, ?_⟩
    · unfold Mime.param; rw [if_pos ⟨rfl, hu⟩]
    · unfold Mime.param
      rw [if_neg (by simp)]
      simp only
      rw [Option.map_eq_none_iff, List.find?_eq_none]
      intro e he h1
      simp only [beq_iff_eq] at h1
      exact hc ⟨hu, List.mem_map.mpr ⟨e, he, h1⟩⟩
    · intro k hk
      unfold Mime.param
      rw [if_neg (fun h => hk h.1), if_neg (fun h => hk h.1)]
    · exact ⟨h.base, h.sub, h.essence, h.names, h.nodup, h.values, h.charset⟩
  · rw [if_neg hu]
    cases hf : m.params.find? fun e => e.1 == n with
    | none =>
      have hp : m.param n = none := by
        unfold Mime.param
        rw [if_neg hu, hf]
        rfl
      exact ⟨hp.symm, hp, fun _ _ => rfl, rfl, h⟩
    | some e =>
      refine ⟨?_, ?_, ?_, rfl, ?_⟩
      · unfold Mime.param
        rw [if_neg hu, hf]
        rfl
      · unfold Mime.param
        rw [if_neg hu]
        simp only
        rw [find?_eraseP_self h.nodup]
        rfl
      · intro k hk
        unfold Mime.param
        simp only
        rw [find?_eraseP_ne _ hk]
      · have hs : (m.params.eraseP fun e => e.1 == n).Sublist m.params := List.eraseP_sublist
        exact ⟨h.base, h.sub, h.essence, fun e he => h.names e (hs.subset he),
          (hs.map _).nodup h.nodup, fun e he => h.values e (hs.subset he), fun he => h.charset (hs.subset he)⟩

example : ∃ m, Mime.parse s!!"a/b;charset=utf-8;x=1" = .ok m ∧ OneCharset m ∧
    (m.removeParam s!!"charset").2.display = s!!"a/b;x=1" :=
  ⟨⟨s!!"a/b", s!!"a", s!!"b", true, [(s!!"x", s!!"1")]⟩, by decide +kernel, by decide, by decide⟩

/-- With two charsets one removal leaves a charset visible. -/
theorem C24_violated_remove : ∃ (m : Mime), Mime.parse s!!"text/html;charset=gbk;charset=utf-8" = .ok m ∧
    (m.removeParam s!!"charset").2.param s!!"charset" = some s!!"gbk" :=
  ⟨⟨s!!"text/html", s!!"text", s!!"html", true, [(s!!"charset", s!!"gbk")]⟩, by decide +kernel, by decide⟩

/-! ### C25: matching -/

/-- When a type matches a pattern: wildcard or equal type, wildcard or equal subtype, and every listed
parameter of the pattern is found with the same value. The list of a pattern leaves out its
`charset=utf-8`. -/
theorem C25_matches_iff (m p : Mime) : m.subsetEq p = true ↔
    (p.basetype = s!!"*" ∨ m.basetype = p.basetype) ∧ (p.subtype = s!!"*" ∨ m.subtype = p.subtype) ∧
      ∀ k v, (k, v) ∈ p.params → m.param k = some v := by
  unfold Mime.subsetEq
  by_cases h1 : p.basetype = s!!"*" ∨ m.basetype = p.basetype
  · rw [if_neg (by rintro ⟨a, b⟩; rcases h1 with h | h; exact a h; exact b h)]
    by_cases h2 : p.subtype = s!!"*" ∨ m.subtype = p.subtype
    · rw [if_neg (by rintro ⟨a, b⟩; rcases h2 with h | h; exact a h; exact b h)]
      simp only [h1, h2, true_and, List.all_eq_true]
      constructor
      · intro h k v hkv
        have := h (k, v) hkv
        simp only at this
        split at this
        · rename_i heq
          simp only [beq_iff_eq] at this
          rw [heq, this]
        · cases this
      · rintro h ⟨k, v⟩ hkv
        have := h k v hkv
        simp only
        rw [this]
        simp
    · rw [if_pos ⟨fun h => h2 (.inl h), fun h => h2 (.inr h)⟩]
      simp [h2]
  · rw [if_pos ⟨fun h => h1 (.inl h), fun h => h1 (.inr h)⟩]
    simp [h1]

example : Mime.HTML.subsetEq ⟨s!!"text/*", s!!"text", s!!"*", false, []⟩ = true ∧ Mime.HTML.subsetEq Mime.CSS = false := by decide +kernel

/-- A well-formed media type matches itself exactly when it has one charset only. -/
theorem C25_refl_iff_partial {m : Mime} (h : MimeWF m) : m.subsetEq m = true ↔ OneCharset m := by
  rw [C25_matches_iff]
  simp only [or_true, true_and]
  constructor
  · rintro hp ⟨hu, hc⟩
    rw [List.mem_map] at hc
    obtain ⟨⟨k, v⟩, hm, hk⟩ := hc
    simp only at hk
    subst hk
    have := hp _ _ hm
    unfold Mime.param at this
    rw [if_pos ⟨rfl, hu⟩] at this
    cases this
    exact h.charset hm
  · intro hc k v hkv
    unfold Mime.param
    rw [if_neg]
    · exact (find?_of_nodup h.nodup).mpr hkv
    · rintro ⟨rfl, hu⟩
      exact hc ⟨hu, List.mem_map.mpr ⟨_, hkv, rfl⟩⟩

example : MimeWF Mime.JSON ∧ Mime.JSON.subsetEq Mime.JSON = true :=
  ⟨(C22_round_trip_iff _).mp (C22_constants _ (by decide)), by decide +kernel⟩

/-- Reflexivity fails for a media type with two charsets. -/
theorem C25_violated_refl : ∃ (m : Mime), Mime.parse s!!"text/html;charset=gbk;charset=utf-8" = .ok m ∧
    m.subsetEq m = false :=
  ⟨⟨s!!"text/html", s!!"text", s!!"html", true, [(s!!"charset", s!!"gbk")]⟩, by decide +kernel, by decide⟩

/-- Everything matches `*/*`. -/
theorem C25_any (m : Mime) : m.subsetEq Mime.ANY = true := by
  rw [C25_matches_iff]
  refine ⟨.inl rfl, .inl rfl, ?_⟩
  intro k v h
  cases h

example : Mime.CSS.subsetEq Mime.ANY = true ∧ Mime.ANY.subsetEq Mime.CSS = false := by decide +kernel

/-- A type matches `type/*` exactly when its basetype agrees. -/
theorem C25_type_any (m : Mime) (t : Str) (ht : t ≠ s!!"*") (u : Bool) :
    m.subsetEq ⟨t ++ s!!"/*", t, s!!"*", u, []⟩ = true ↔ m.basetype = t := by
  rw [C25_matches_iff]
  simp [ht]

example : Mime.CSS.subsetEq ⟨s!!"text/*", s!!"text", s!!"*", false, []⟩ = true ∧
    Mime.JSON.subsetEq ⟨s!!"text/*", s!!"text", s!!"*", false, []⟩ = false := by decide +kernel

/-- Matching is transitive on well-formed media types. -/
theorem C25_trans {a b c : Mime} (hb : MimeWF b) (hc : MimeWF c) (h1 : a.subsetEq b = true)
    (h2 : b.subsetEq c = true) : a.subsetEq c = true := by
  rw [C25_matches_iff] at h1 h2 ⊢
  obtain ⟨x1, x2, x3⟩ := h1
  obtain ⟨y1, y2, y3⟩ := h2
  refine ⟨?_, ?_, ?_⟩
  · rcases y1 with h | h
    · exact .inl h
    · rcases x1 with h' | h'
      · exact .inl (by rw [← h, h'])
      · exact .inr (by rw [h', h])
  · rcases y2 with h | h
    · exact .inl h
    · rcases x2 with h' | h'
      · exact .inl (by rw [← h, h'])
      · exact .inr (by rw [h', h])
  · intro k v hkv
    have := y3 k v hkv
    unfold Mime.param at this
    by_cases hu : k = s!!"charset" ∧ b.isUtf8 = true
    · rw [if_pos hu] at this
      cases this
      rw [hu.1] at hkv
      exact absurd hkv hc.charset
    · rw [if_neg hu] at this
      exact x3 k v ((find?_of_nodup hb.nodup).mp this)

example : ∃ a b c, Mime.parse s!!"text/html;q=1;l=2" = .ok a ∧ Mime.parse s!!"text/*;q=1" = .ok b ∧
    Mime.parse s!!"*/*;q=1" = .ok c ∧ a.subsetEq b = true ∧ b.subsetEq c = true ∧ c.subsetEq b = false :=
  ⟨⟨s!!"text/html", s!!"text", s!!"html", false, [(s!!"q", s!!"1"), (s!!"l", s!!"2")]⟩,
    ⟨s!!"text/*", s!!"text", s!!"*", false, [(s!!"q", s!!"1")]⟩,
    ⟨s!!"*/*", s!!"*", s!!"*", false, [(s!!"q", s!!"1")]⟩,
    by decide +kernel, by decide +kernel, by decide +kernel, by decide, by decide, by decide⟩

/-- A `charset=utf-8` in the pattern is not required of the type. -/
theorem C25_violated_charset : ∃ (a b : Mime), Mime.parse s!!"text/html" = .ok a ∧
    Mime.parse s!!"text/html;charset=utf-8" = .ok b ∧ a.param s!!"charset" = none ∧ a.subsetEq b = true :=
  ⟨⟨s!!"text/html", s!!"text", s!!"html", false, []⟩, ⟨s!!"text/html", s!!"text", s!!"html", true, []⟩,
    by decide +kernel, by decide +kernel, by decide, by decide⟩

/-- A parsed media type with a Latin-1 parameter value becomes a non-ASCII header value (relevant to C04). -/
theorem C04_violated_mime : ∃ (s : Str) (m : Mime), Mime.parse s = .ok m ∧ ¬ Ascii m.toHeaderValue :=
  ⟨s!!"a/b;c=\"" ++ [Char.ofNat 233] ++ s!!"\"", ⟨s!!"a/b", s!!"a", s!!"b", false, [(s!!"c", [Char.ofNat 233])]⟩,
    by decide +kernel, by decide⟩

end HT
