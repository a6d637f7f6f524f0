import Verif.Spec.Validators
import Verif.Props.Lists

/-! C118: validators that come back to the server that gave them out. -/

namespace HT
open Spec

/-- A client reads the tag that the server wrote exactly if it is legal; otherwise it reads nothing. -/
theorem C118_learn (e : ETag) (resp : Headers) :
    (EtagLegal e → learnTag e resp = .ok (some e)) ∧ (¬ EtagLegal e → learnTag e resp = .err 400) := by
  have hr : learnTag e resp = (ETag.fromStr e.display).map some :=
    readLast_snoc (vs := []) (get_set_self _ _ _)
  rw [hr]
  constructor
  · intro h
    rw [(C33_print_parse e).mpr h]
    rfl
  · intro h
    rcases (C33_parse_iff e.display).2 with ⟨e', he⟩ | he
    · exfalso
      obtain ⟨a, b⟩ := ((C33_parse_iff _).1 e').mp he
      rw [display_eq_etagText] at a
      apply h
      have : e = e' := by
        cases e <;> cases e' <;> simp [etagText] at a ⊢ <;> exact a
      rw [this]
      exact b
    · rw [he]
      rfl

example : EtagLegal (.weak s!!"v1") ∧ ¬ EtagLegal (.strong s!!"a b") := by
  simp only [EtagLegal]; decide

theorem listItems_space (s : Str) : listItems [' ' :: s] = listItems [s] := by
  unfold listItems
  simp only [List.flatMap_cons, List.flatMap_nil, List.append_nil]
  cases hs : split ',' s with
  | nil => exact absurd hs (split_ne_nil _ _)
  | cons p ps =>
    have := split_append_left (c := ',') (t := [' ']) (by decide) hs
    rw [show ' ' :: s = [' '] ++ s from rfl, this]
    simp only [List.map_cons, List.cons.injEq, and_true]
    exact trim_space_cons p

theorem listItems_sep {a : Str} (h : ',' ∉ a) (b : Str) :
    listItems [a ++ ',' :: b] = trim a :: listItems [b] := by
  unfold listItems
  simp only [List.flatMap_cons, List.flatMap_nil, List.append_nil]
  rw [split_append_sep h]
  rfl

/-- What a member that is cut off inside a tag looks like: it cannot be read. -/
theorem cut_tag {q x : Str} (hq : q = s!!"\"" ∨ q = s!!"W/\"") (hx : '"' ∉ x) :
    trim (q ++ x) ≠ s!!"*" ∧ ∀ e, trim (q ++ x) ≠ etagText e := by
  obtain ⟨w, w', e, h1, h2⟩ := trim_spec (q ++ x)
  have hq1 : List.count '"' q = 1 := by rcases hq with rfl | rfl <;> decide
  have hc : List.count '"' (q ++ x) = 1 := by
    rw [List.count_append, hq1, List.count_eq_zero_of_not_mem hx]
  have hw : List.count '"' w = 0 := List.count_eq_zero_of_not_mem fun h => by
    have := h1 _ h
    exact absurd this (by decide)
  have hw' : List.count '"' w' = 0 := List.count_eq_zero_of_not_mem fun h => by
    have := h2 _ h
    exact absurd this (by decide)
  have ht : List.count '"' (trim (q ++ x)) = 1 := by
    rw [e, List.count_append, List.count_append, hw, hw'] at hc
    omega
  constructor
  · intro h
    rw [h] at ht
    exact absurd ht (by decide)
  · intro t h
    rw [h] at ht
    cases t <;> simp [etagText, List.count_append] at ht

theorem etagText_parts (e : ETag) : ∃ q, (q = s!!"\"" ∨ q = s!!"W/\"") ∧ etagText e = q ++ (etagBody e ++ s!!"\"") := by
  cases e with
  | strong s => exact ⟨_, .inl rfl, rfl⟩
  | weak s => exact ⟨_, .inr rfl, rfl⟩

/-- A list of legal tags, one of them with a comma, has a member that is neither a tag nor `*`. -/
theorem comma_member {es : List ETag} (hl : ∀ e ∈ es, EtagLegal e) {e : ETag} (he : e ∈ es) (hc : ',' ∈ etagBody e) :
    ∃ t ∈ listItems [join s!!", " (es.map etagText)], t ≠ s!!"*" ∧ ∀ e, t ≠ etagText e := by
  induction es with
  | nil => cases he
  | cons a es ih =>
    obtain ⟨rest, hrest⟩ : ∃ rest, join s!!", " ((a :: es).map etagText) = etagText a ++ rest := by
      cases es with
      | nil => exact ⟨[], by simp [join]⟩
      | cons b es => exact ⟨s!!", " ++ join s!!", " ((b :: es).map etagText), by simp [join]⟩
    by_cases hac : ',' ∈ etagBody a
    · obtain ⟨x, y, hxy, hx⟩ : ∃ x y, etagBody a = x ++ ',' :: y ∧ ',' ∉ x := by
        rcases split_cases ',' (etagBody a) with ⟨h, -⟩ | ⟨x, y, h, h', -⟩
        · exact absurd hac h
        · exact ⟨x, y, h', h⟩
      obtain ⟨q, hq, ht⟩ := etagText_parts a
      have hqc : ',' ∉ q := by rcases hq with rfl | rfl <;> decide
      have hxq : '"' ∉ x := fun h => (hl a (by simp) '"' (by rw [hxy]; simp [h])).2.1 rfl
      refine ⟨trim (q ++ x), ?_, cut_tag hq hxq⟩
      have e1 : join s!!", " ((a :: es).map etagText) = (q ++ x) ++ ',' :: (y ++ s!!"\"" ++ rest) := by
        rw [hrest, ht, hxy]
        simp
      rw [e1, listItems_sep (by simp [hqc, hx])]
      simp
    · cases es with
      | nil => simp at he; subst he; exact absurd hc hac
      | cons b es =>
        have he' : e ∈ b :: es := by
          rcases List.mem_cons.mp he with rfl | h
          · exact absurd hc hac
          · exact h
        obtain ⟨t, h1, h2⟩ := ih (fun e h => hl e (by simp [h])) he'
        refine ⟨t, ?_, h2⟩
        have hta : ',' ∉ etagText a := by
          cases a <;> simp [etagText, etagBody] at hac ⊢ <;> exact hac
        have e1 : join s!!", " ((a :: b :: es).map etagText) =
            etagText a ++ ',' :: (' ' :: join s!!", " ((b :: es).map etagText)) := by simp [join]
        rw [e1, listItems_sep hta, listItems_space]
        exact List.mem_cons_of_mem _ h1

/-- What the server reads when a client sends back the tags it was given: exactly those tags, in the order in which
the client sent them, if there is at least one, all of them are legal and none has a comma; status 400 otherwise. -/
theorem C118_tags_partial (none : Bool) (given : List (ETag × Headers)) (req : Headers) :
    ((given ≠ [] ∧ ∀ p ∈ given, EtagLegal p.1 ∧ ',' ∉ etagBody p.1) →
      sendTags none given req = .ok (some ⟨given.map Prod.fst, false⟩)) ∧
    (¬ (given ≠ [] ∧ ∀ p ∈ given, EtagLegal p.1 ∧ ',' ∉ etagBody p.1) → sendTags none given req = .err 400) := by
  by_cases hleg : ∀ p ∈ given, EtagLegal p.1
  · have hm : Res.mapM (fun p => learnTag p.1 p.2) given = .ok (given.map fun p => some p.1) := by
      rw [Res.mapM_eq_ok_iff]
      clear req
      induction given with
      | nil => exact .nil
      | cons p ps ih =>
        exact .cons ((C118_learn p.1 p.2).1 (hleg p (by simp))) (ih fun q hq => hleg q (by simp [hq]))
    have hf : (given.map fun p => some p.1).filterMap id = given.map Prod.fst := by
      clear hleg hm
      induction given with
      | nil => rfl
      | cons p ps ih => simp
    have hs : ∃ h' : Headers, h'.get (if none then s!!"if-none-match" else s!!"if-match") =
          some [join s!!", " ((given.map Prod.fst).map etagText)] ∧
        sendTags none given req = (if none then IfMatch.noneFromHeaders h' else IfMatch.fromHeaders h') := by
      refine ⟨FMap.set req (if none then s!!"if-none-match" else s!!"if-match")
        [join s!!", " ((given.map Prod.fst).map etagText)], get_set_self _ _ _, ?_⟩
      unfold sendTags
      rw [hm]
      simp only [Res.bind]
      rw [hf]
      have hv : IfMatch.value ⟨given.map Prod.fst, false⟩ = .ok (join s!!", " ((given.map Prod.fst).map etagText)) := by
        unfold IfMatch.value
        rw [writeStar_eq (by simp)]
        unfold written
        simp only [Bool.false_eq_true, if_false, List.append_nil]
        rw [List.map_congr_left fun e _ => display_eq_etagText e]
      rw [hv, applyHeader_ok]
      cases none <;> rfl
    obtain ⟨h', hg, hs⟩ := hs
    rw [hs]
    have hall : ∀ e ∈ given.map Prod.fst, EtagLegal e := by
      intro e he
      obtain ⟨p, hp, rfl⟩ := List.mem_map.mp he
      exact hleg p hp
    constructor
    · rintro ⟨hne, hcom⟩
      have hp : ∀ e ∈ given.map Prod.fst, ',' ∉ etagText e ∧ Trimmed (etagText e) ∧ etagText e ≠ s!!"*" ∧
          ETag.fromStr (etagText e) = .ok e := by
        intro e he
        obtain ⟨p, hp, rfl⟩ := List.mem_map.mp he
        refine ⟨?_, etagText_trimmed _, etagText_ne_star _, ?_⟩
        · have := (hcom p hp).2
          generalize p.1 = a at this
          cases a <;> simp [etagText, etagBody] at this ⊢ <;> exact this
        · rw [← display_eq_etagText, C33_print_parse]
          exact hleg p hp
      have hg' : h'.get (if none then s!!"if-none-match" else s!!"if-match") =
          some [join s!!", " (written s!!"*" ((given.map Prod.fst).map etagText) false)] := by
        rw [hg]; simp [written]
      cases none
      · exact starList_reads_back (l := ⟨given.map Prod.fst, false⟩) (by decide) (.inl (by simpa using hne)) hp hg'
      · exact starList_reads_back (l := ⟨given.map Prod.fst, false⟩) (by decide) (.inl (by simpa using hne)) hp hg'
    · intro hno
      obtain ⟨hr, hc⟩ := C34_reads h' _ none hg
      rcases hc with ⟨l, hl⟩ | hc
      · exfalso
        obtain ⟨-, hf2⟩ := (hr l).mp hl
        have hbad : ∃ t ∈ listItems [join s!!", " ((given.map Prod.fst).map etagText)],
            t ≠ s!!"*" ∧ ∀ e, t ≠ etagText e := by
          by_cases hne : given = []
          · subst hne
            refine ⟨[], by decide, by decide, ?_⟩
            intro e; cases e <;> simp [etagText]
          · obtain ⟨p, hp, hpc⟩ : ∃ p ∈ given, ',' ∈ etagBody p.1 := by
              by_contra hcon
              exact hno ⟨hne, fun p hp => ⟨hleg p hp, fun h => hcon ⟨p, hp, h⟩⟩⟩
            exact comma_member hall (List.mem_map_of_mem hp) hpc
        obtain ⟨t, ht, h1, h2⟩ := hbad
        obtain ⟨e, -, h3, -⟩ := forall₂_left hf2 t (List.mem_filter.mpr ⟨ht, by simp [h1]⟩)
        exact h2 e h3
      · exact hc
  · refine ⟨fun h => absurd (fun p hp => (h.2 p hp).1) hleg, fun _ => ?_⟩
    have hcl : (Res.mapM (fun p : ETag × Headers => learnTag p.1 p.2) given).Clean 400 := by
      apply Res.mapM_clean
      intro p _
      by_cases h : EtagLegal p.1
      · exact .inl ⟨_, (C118_learn p.1 p.2).1 h⟩
      · exact .inr ((C118_learn p.1 p.2).2 h)
    unfold sendTags
    rcases hcl with ⟨os, hos⟩ | h
    · exfalso
      apply hleg
      intro p hp
      obtain ⟨o, -, ho⟩ := forall₂_left ((Res.mapM_eq_ok_iff ..).mp hos) p hp
      by_contra hn
      rw [(C118_learn p.1 p.2).2 hn] at ho
      cases ho
    · rw [h]
      rfl

example : [(ETag.strong s!!"a", oneHeader s!!"age" s!!"3"), (.weak s!!"b", [])] ≠ [] ∧
    ∀ p ∈ [(ETag.strong s!!"a", oneHeader s!!"age" s!!"3"), (.weak s!!"b", [])], EtagLegal p.1 ∧ ',' ∉ etagBody p.1 := by
  simp only [EtagLegal]; decide

/-- Legal tags are all understood by the client, but if one of them has a comma the server refuses them when they come
back, in either header. -/
theorem C118_violated_comma (none : Bool) (given : List (ETag × Headers)) (req : Headers)
    (hl : ∀ p ∈ given, EtagLegal p.1) (p : ETag × Headers) (hp : p ∈ given) (hc : ',' ∈ etagBody p.1) :
    (∀ p ∈ given, learnTag p.1 p.2 = .ok (some p.1)) ∧ sendTags none given req = .err 400 :=
  ⟨fun p hp => (C118_learn p.1 p.2).1 (hl p hp), (C118_tags_partial none given req).2 fun h => (h.2 p hp).2 hc⟩

example : learnTag (.strong s!!"3,14") [] = .ok (some (.strong s!!"3,14")) ∧
    ',' ∈ etagBody (.strong s!!"3,14") := by decide

/-- The time of a `Last-Modified` header comes back in any of the date headers, cut to whole seconds, exactly for times
from 1970 to 9999; for other times writing it panics. -/
theorem C118_dates (d : DateHeader) (t : SysTime) (resp req : Headers) :
    (0 ≤ t.secs ∧ t.secs ≤ (⟨9999, 12, 31, 23, 59, 59⟩ : Fields).instant →
      sendDate d t resp req = .ok (some ⟨t.secs, 0⟩)) ∧
    (¬ (0 ≤ t.secs ∧ t.secs ≤ (⟨9999, 12, 31, 23, 59, 59⟩ : Fields).instant) → sendDate d t resp req = .panic) := by
  constructor
  · rintro ⟨h0, h1⟩
    obtain ⟨a, v, e1, -, -, r1⟩ := C29_roundtrip .lastModified t h0 h1 resp
    obtain ⟨b, w, e2, -, -, r2⟩ := C29_roundtrip d ⟨t.secs, 0⟩ h0 h1 req
    unfold sendDate
    rw [show applyHeader resp s!!"last-modified" (DateHeader.value .lastModified t) = .ok a from e1]
    simp only [Res.bind]
    rw [r1]
    simp only
    rw [e2]
    exact r2
  · intro h
    have hp : fmtHttpDate t = .panic := (C26_range t).mpr (by omega)
    unfold sendDate
    rw [show DateHeader.value .lastModified t = .panic from hp]
    rfl

example : sendDate .ifModifiedSince ⟨784111777, 500⟩ [] [] = .ok (some ⟨784111777, 0⟩) := by decide +kernel

/-- The time comes back as it was given out exactly if it is a whole number of seconds. -/
theorem C118_dates_exact_partial (d : DateHeader) (t : SysTime) (resp req : Headers) :
    sendDate d t resp req = .ok (some t) ↔
      0 ≤ t.secs ∧ t.secs ≤ (⟨9999, 12, 31, 23, 59, 59⟩ : Fields).instant ∧ t.nanos = 0 := by
  obtain ⟨h1, h2⟩ := C118_dates d t resp req
  by_cases h : 0 ≤ t.secs ∧ t.secs ≤ (⟨9999, 12, 31, 23, 59, 59⟩ : Fields).instant
  · rw [h1 h]
    obtain ⟨s, n⟩ := t
    simp only [Res.ok.injEq, Option.some.injEq, SysTime.mk.injEq, true_and]
    exact ⟨fun e => ⟨h.1, h.2, e.symm⟩, fun e => e.2.2.symm⟩
  · rw [h2 h]
    simp only [reduceCtorEq, false_iff]
    exact fun e => h ⟨e.1, e.2.1⟩

example : sendDate .lastModified ⟨784111777, 0⟩ [] [] = .ok (some ⟨784111777, 0⟩) :=
  (C118_dates_exact_partial ..).mpr ⟨by decide, by decide +kernel, rfl⟩

/-- If the resource was last modified at a fraction of a second, the time that comes back is before the modification: a
server that compares the two finds the resource modified since, on every request. -/
theorem C118_violated_fraction (d : DateHeader) (t : SysTime) (resp req : Headers) (hn : 0 < t.nanos)
    (h : 0 ≤ t.secs ∧ t.secs ≤ (⟨9999, 12, 31, 23, 59, 59⟩ : Fields).instant) :
    ∃ x, sendDate d t resp req = .ok (some x) ∧ Before x t :=
  ⟨_, (C118_dates d t resp req).1 h, .inr ⟨rfl, hn⟩⟩

example : (0 : Nat) < (⟨784111777, 500⟩ : SysTime).nanos ∧ (0 : Int) ≤ 784111777 := by decide

end HT
