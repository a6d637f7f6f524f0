import Verif.Spec.Reuse
import Verif.Props.Build
import Verif.Props.Names
import Verif.Props.Validators
import Verif.Props.Split
import Verif.Props.Relay

/-! C127: a cache that goes by Vary answers with what the server would have made of the request. -/

namespace HT
open Spec

theorem trim_lower (s : Str) : trim (lower s) = lower (trim s) := by
  have hs : ∀ t : Str, trimStart (lower t) = lower (trimStart t) := by
    intro t
    induction t with
    | nil => rfl
    | cons c t ih =>
      show List.dropWhile _ (lowerC c :: lower t) = lower (List.dropWhile _ (c :: t))
      by_cases hc : isWs c = true
      · rw [List.dropWhile_cons_of_pos (by rw [isWs_lowerC]; exact hc), List.dropWhile_cons_of_pos hc]
        exact ih
      · rw [List.dropWhile_cons_of_neg (by rw [isWs_lowerC]; exact hc), List.dropWhile_cons_of_neg hc]
        rfl
  have he : ∀ t : Str, trimEnd (lower t) = lower (trimEnd t) := by
    intro t
    have := hs t.reverse
    unfold trimEnd
    unfold trimStart lower at this
    unfold lower
    rw [← List.map_reverse, this, List.map_reverse]
  unfold trim
  rw [hs, he]

theorem listItems_lower (s : Str) : listItems [lower s] = (listItems [s]).map lower := by
  unfold listItems
  simp only [List.flatMap_cons, List.flatMap_nil, List.append_nil]
  rw [split_lower (by decide) (by decide)]
  simp only [List.map_map]
  exact List.map_congr_left fun t _ => trim_lower t

theorem lower_star {t : Str} : lower t = s!!"*" ↔ t = s!!"*" := by
  constructor
  · intro e
    cases t with
    | nil => cases e
    | cons c t =>
      cases t with
      | nil =>
        simp only [lower, List.map_cons, List.map_nil, List.cons.injEq, and_true] at e
        rw [(lowerC_eq_iff (by decide) (by decide)).mp e]
      | cons d t => simp [lower] at e
  · rintro rfl; rfl

theorem star_lower (d : Str) : s!!"*" ∈ listItems [lower d] ↔ s!!"*" ∈ listItems [d] := by
  rw [listItems_lower, List.mem_map]
  constructor
  · rintro ⟨t, ht, e⟩; exact lower_star.mp e ▸ ht
  · intro h; exact ⟨_, h, rfl⟩

/-- The members of what is joined by comma and space are the members of the parts. -/
theorem listItems_parts {ts : List Str} (h : ts ≠ []) : listItems [join s!!", " ts] = ts.flatMap fun t => listItems [t] := by
  induction ts with
  | nil => exact absurd rfl h
  | cons t ts ih =>
    cases ts with
    | nil => simp [join]
    | cons u us =>
      rw [List.flatMap_cons, ← ih (by simp)]
      have : join s!!", " (t :: u :: us) = t ++ ',' :: (' ' :: join s!!", " (u :: us)) := by simp [join]
      rw [this, ← listItems_space (join s!!", " (u :: us))]
      unfold listItems
      simp only [List.flatMap_cons, List.flatMap_nil, List.append_nil]
      rw [split_concat, List.map_append]

theorem pushAll_eq {deps : List Str} (ha : ∀ d ∈ deps, Ascii d) (l : StarList HeaderName) :
    pushAll deps l = .ok ⟨l.entries ++ deps.map lower, l.wildcard⟩ := by
  induction deps generalizing l with
  | nil => simp [pushAll]
  | cons d ds ih =>
    unfold pushAll
    rw [(C84_vary_push l d).1 (ha d (by simp)), Res.bind_ok, ih fun d hd => ha d (List.mem_cons_of_mem _ hd)]
    simp

theorem ascii_of_lower {d : Str} (h : Ascii d) : isAscii (lower d) = true := by
  rw [isAscii_iff]
  intro c hc
  obtain ⟨e, he, rfl⟩ := List.mem_map.mp hc
  have := h e he
  rw [lowerC_toNat]
  split <;> omega

/-- What the server sends. -/
theorem varying_eq {deps : List Str} (ha : ∀ d ∈ deps, Ascii d) (star : Bool) (resp : Headers) :
    ∃ v, varying deps star resp = .ok (FMap.set resp s!!"vary" [v]) ∧ Ascii v ∧
      (s!!"*" ∈ listItems [v] ↔ star = true ∨ ∃ d ∈ deps, s!!"*" ∈ listItems [d]) ∧
      (star = false → listItems [v] = if deps = [] then [[]] else deps.flatMap fun d => listItems [lower d]) := by
  have hn : ∀ n ∈ deps.map lower, isAscii n = true := by
    intro n hn
    obtain ⟨d, hd, rfl⟩ := List.mem_map.mp hn
    exact ascii_of_lower (ha d hd)
  have hval : Vary.value ⟨deps.map lower, star⟩ =
      .ok (writeStar s!!"*" (writeLoop [] true (deps.map lower)) star) := by
    unfold Vary.value
    rw [Res.mapM_ok_of_forall (g := id)]
    · simp
    · intro n hm
      unfold HeaderValue.fromStr HeaderName.asStr
      rw [if_pos (hn n hm)]
      rfl
  have hitems : star = false → listItems [writeStar s!!"*" (writeLoop [] true (deps.map lower)) star] =
      if deps = [] then [[]] else deps.flatMap fun d => listItems [lower d] := by
    rintro rfl
    rw [writeStar_eq (by simp)]
    unfold written
    cases deps with
    | nil => rfl
    | cons d ds =>
      simp only [Bool.false_eq_true, if_false, List.append_nil]
      rw [if_neg (by simp), listItems_parts (by simp), List.flatMap_map]
  refine ⟨writeStar s!!"*" (writeLoop [] true (deps.map lower)) star, ?_, ?_, ?_, hitems⟩
  · unfold varying
    rw [pushAll_eq ha]
    show applyHeader resp _ (Vary.value ⟨[] ++ deps.map lower, star⟩) = _
    rw [List.nil_append, hval]
    rfl
  · refine isAscii_iff.mp ?_
    by_cases hx : deps.map lower = [[]] ∧ star = true
    · rw [hx.1, hx.2]; decide
    · rw [writeStar_eq hx]
      apply isAscii_join (by decide)
      intro t ht
      unfold written at ht
      rcases List.mem_append.mp ht with ht | ht
      · exact hn t ht
      · split at ht
        · rw [List.mem_singleton.mp ht]; decide
        · cases ht
  · cases star with
    | true =>
      simp only [true_or, iff_true]
      by_cases hx : deps.map lower = [[]]
      · rw [hx]; decide
      · rw [writeStar_eq (by simp [hx])]
        unfold written
        rw [listItems_parts (by simp), List.mem_flatMap]
        exact ⟨s!!"*", by simp, by decide⟩
    | false =>
      rw [hitems rfl]
      by_cases hd : deps = []
      · subst hd; simp
      · rw [if_neg hd, List.mem_flatMap]
        simp [star_lower]

/-- What makes a cache use an answer again, for any lines of Vary. -/
theorem C127_lines (resp : Headers) :
    (resp.get s!!"vary" = none → ∀ old req, reuses resp old req = .ok true) ∧
    (∀ vs, resp.get s!!"vary" = some vs → (∀ v ∈ vs, Ascii v) → ∀ old req : Headers,
      ∃ b, reuses resp old req = .ok b ∧
        (b = true ↔ s!!"*" ∉ listItems vs ∧ ∀ t ∈ listItems vs, old.getStr t = req.getStr t)) := by
  constructor
  · intro h old req
    unfold reuses
    rw [show Vary.fromHeaders resp = .ok none from readStarList_none h]
    rfl
  · intro vs hv ha old req
    unfold reuses
    rw [C35_reads resp vs hv ha]
    refine ⟨_, rfl, ?_⟩
    have hg : ∀ t ∈ listItems vs, (old.getStr t = req.getStr t ↔ old.get (lower t) = req.get (lower t)) := by
      intro t ht
      unfold Headers.getStr
      rw [HeaderName.ofStr_ascii (isAscii_iff.mpr (listItems_ascii ha t ht))]
      simp [Res.map]
    simp only [Bool.and_eq_true, Bool.not_eq_true', decide_eq_false_iff_not, List.all_eq_true, List.mem_map, List.mem_filter,
      decide_eq_true_eq]
    refine and_congr_right fun hs => ⟨fun h t ht => (hg t ht).mpr (h _ ⟨t, ⟨ht, fun e => hs (e ▸ ht)⟩, rfl⟩), ?_⟩
    rintro h _ ⟨t, ⟨ht, -⟩, rfl⟩
    exact (hg t ht).mp (h t ht)

example : reuses (oneHeader s!!"vary" s!!"Accept, , Origin") (oneHeader s!!"origin" s!!"a") (oneHeader s!!"origin" s!!"b") = .ok false := by
  decide +kernel

/-- A cache that goes by what the server wrote uses an answer again exactly for requests that agree on the named fields, in
any spelling of the names, and never with the wildcard. -/
theorem C127_reuse_iff_partial (deps : List Str) (star : Bool) (hd : ∀ d ∈ deps, Ascii d ∧ ',' ∉ d ∧ Trimmed d ∧ d ≠ s!!"*")
    (hne : deps ≠ [] ∨ star = true) (resp : Headers) :
    ∃ resp', varying deps star resp = .ok resp' ∧ ∀ old req : Headers, ∃ b, reuses resp' old req = .ok b ∧
      (b = true ↔ star = false ∧ ∀ d ∈ deps, old.getStr d = req.getStr d) := by
  obtain ⟨v, h1, h2, h3, h4⟩ := varying_eq (fun d h => (hd d h).1) star resp
  refine ⟨_, h1, fun old req => ?_⟩
  obtain ⟨b, hb, hi⟩ := (C127_lines _).2 [v] (get_set_self _ _ _) (by simpa using h2) old req
  refine ⟨b, hb, hi.trans ?_⟩
  have hone : ∀ d ∈ deps, listItems [d] = [d] := by
    intro d h
    unfold listItems
    simp [split_of_not_mem (hd d h).2.1, trim_of_trimmed (hd d h).2.2.1]
  have hst : s!!"*" ∈ listItems [v] ↔ star = true := by
    rw [h3]
    refine or_iff_left ?_
    rintro ⟨d, h, hs⟩
    rw [hone d h, List.mem_singleton] at hs
    exact (hd d h).2.2.2 hs.symm
  rw [hst, Bool.not_eq_true]
  refine and_congr_right fun hs => ?_
  rw [h4 hs, if_neg (hne.resolve_right (by simp [hs]))]
  have hg : ∀ d ∈ deps, ∀ h : Headers, h.getStr (lower d) = h.getStr d := by
    intro d hm h
    unfold Headers.getStr
    rw [HeaderName.ofStr_ascii (isAscii_iff.mpr (hd d hm).1), HeaderName.ofStr_ascii (ascii_of_lower (hd d hm).1), lower_lower]
  constructor
  · intro h d hm
    rw [← hg d hm, ← hg d hm]
    exact h _ (List.mem_flatMap.mpr ⟨d, hm, by rw [listItems_lower, hone d hm]; simp⟩)
  · intro h t ht
    obtain ⟨d, hm, ht⟩ := List.mem_flatMap.mp ht
    rw [listItems_lower, hone d hm, List.map_singleton, List.mem_singleton] at ht
    rw [ht, hg d hm, hg d hm]
    exact h d hm

example : ∀ d ∈ [s!!"Accept-Encoding", s!!"origin"], Ascii d ∧ ',' ∉ d ∧ Trimmed d ∧ d ≠ s!!"*" := by decide

/-- A server that names no field sends a list with one empty name: the answer is used again for every request that has no
header with an empty name. -/
theorem C127_nothing (resp : Headers) :
    ∃ resp', varying [] false resp = .ok resp' ∧ ∀ old req : Headers, ∃ b, reuses resp' old req = .ok b ∧
      (b = true ↔ old.getStr [] = req.getStr []) := by
  obtain ⟨v, h1, h2, h3, h4⟩ := varying_eq (deps := []) (by simp) false resp
  refine ⟨_, h1, fun old req => ?_⟩
  obtain ⟨b, hb, hi⟩ := (C127_lines _).2 [v] (get_set_self _ _ _) (by simpa using h2) old req
  refine ⟨b, hb, hi.trans ?_⟩
  rw [h4 rfl]
  simp

example : varying [] false [] = .ok (oneHeader s!!"vary" []) := by decide +kernel

/-- Exactly when every server is safe with its cache: its answer varies with everything, or the names on which it depends
have no comma and no white space around them. -/
theorem C127_right_iff_partial (deps : List Str) (star : Bool) (resp : Headers) :
    CacheRight deps star resp ↔ (∀ d ∈ deps, Ascii d) ∧
      (star = true ∨ (∃ d ∈ deps, s!!"*" ∈ listItems [d]) ∨ ∀ d ∈ deps, ',' ∉ d ∧ Trimmed d) := by
  have hasc : ∀ resp', varying deps star resp = .ok resp' → ∀ d ∈ deps, Ascii d := by
    intro resp' h
    obtain ⟨l, hl, -⟩ := Res.bind_eq_ok_iff.mp h
    clear h
    generalize (StarList.new : StarList HeaderName) = l0 at hl
    induction deps generalizing l0 with
    | nil => intro d hd; cases hd
    | cons e es ih =>
      obtain ⟨l1, h1, h2⟩ := Res.bind_eq_ok_iff.mp hl
      intro d hd
      rcases List.mem_cons.mp hd with rfl | hd
      · by_contra hn
        rw [(C84_vary_push l0 d).2 hn] at h1
        cases h1
      · exact ih _ h2 d hd
  constructor
  · rintro ⟨resp', hr, hs⟩
    have ha := hasc _ hr
    refine ⟨ha, ?_⟩
    obtain ⟨v, h1, h2, h3, h4⟩ := varying_eq ha star resp
    rw [h1] at hr
    obtain rfl := Res.ok.inj hr
    by_contra hn
    simp only [not_or, Bool.not_eq_true] at hn
    obtain ⟨n1, n2, n3⟩ := hn
    push Not at n3
    obtain ⟨d, hd, n3⟩ := n3
    have hbad : lower d ∉ listItems [v] := by
      intro hm
      obtain ⟨c1, c2⟩ := listItems_mem hm
      exact n3 (by rwa [mem_lower (by decide) (by decide)] at c1) (trimmed_lower.mp c2)
    have hreq : ∀ t, Ascii t → Headers.getStr (oneHeader (lower d) s!!"1") t = Headers.getStr [] t ∨ lower t = lower d := by
      intro t ht
      by_cases e : lower t = lower d
      · exact .inr e
      · left
        unfold Headers.getStr
        rw [HeaderName.ofStr_ascii (isAscii_iff.mpr ht)]
        simp [Res.map, Headers.get, oneHeader, FMap.get, Ne.symm e]
    obtain ⟨b, hb, hi⟩ := (C127_lines _).2 [v] (get_set_self resp s!!"vary" [v]) (by simpa using h2) (oneHeader (lower d) s!!"1") []
    have hv2 : ∀ t ∈ listItems [v], Ascii t := listItems_ascii (by simpa using h2)
    have hbt : b = true := by
      refine hi.mpr ⟨?_, fun t ht => ?_⟩
      · rw [h3, n1]
        simpa using n2
      · refine (hreq t (hv2 t ht)).resolve_right fun e => hbad ?_
        have hlow : lower t = t := by
          rw [h4 n1] at ht
          split at ht
          · rw [List.mem_singleton.mp ht]; rfl
          · obtain ⟨x, -, hx⟩ := List.mem_flatMap.mp ht
            rw [listItems_lower, List.mem_map] at hx
            obtain ⟨y, -, rfl⟩ := hx
            exact lower_lower y
        rwa [← e, hlow]
    rw [hbt] at hb
    have := hs _ (fun f => f d) (fun f g h => h d hd) _ _ hb
    unfold Headers.getStr at this
    rw [HeaderName.ofStr_ascii (isAscii_iff.mpr (ha d hd))] at this
    simp [Res.map, Headers.get, oneHeader, FMap.get] at this
  · rintro ⟨ha, h⟩
    obtain ⟨v, h1, h2, h3, h4⟩ := varying_eq ha star resp
    refine ⟨_, h1, fun α page hp old req hr => ?_⟩
    obtain ⟨b, hb, hi⟩ := (C127_lines _).2 [v] (get_set_self resp s!!"vary" [v]) (by simpa using h2) old req
    rw [hr] at hb
    obtain ⟨hns, hall⟩ := hi.mp (Res.ok.inj hb).symm
    rw [h3, not_or] at hns
    have hd := (h.resolve_left hns.1).resolve_left hns.2
    refine hp _ _ fun d hm => ?_
    have hg : ∀ h : Headers, h.getStr (lower d) = h.getStr d := by
      intro h
      unfold Headers.getStr
      rw [HeaderName.ofStr_ascii (isAscii_iff.mpr (ha d hm)), HeaderName.ofStr_ascii (ascii_of_lower (ha d hm)), lower_lower]
    rw [← hg, ← hg]
    refine hall _ ?_
    rw [h4 (by simpa using hns.1), if_neg (List.ne_nil_of_mem hm), List.mem_flatMap]
    refine ⟨d, hm, ?_⟩
    unfold listItems
    rw [List.flatMap_cons, List.flatMap_nil, List.append_nil,
      split_of_not_mem (by rw [mem_lower (by decide) (by decide)]; exact (hd d hm).1)]
    simp [trim_of_trimmed (trimmed_lower.mpr (hd d hm).2)]

example (resp : Headers) : CacheRight [s!!"Accept", s!!"X-Shop"] false resp :=
  (C127_right_iff_partial _ _ _).mpr ⟨by decide, .inr (.inr (by decide))⟩

/-- A server whose answer depends on what is read of some typed headers of the request (negotiation, credentials,
validators), and that names their fields, is safe with any cache: of a request answered from it the server would have read the
same. -/
theorem C127_typed {α : Type} {field : Str} {name : HeaderName} {read : Headers → Res (Option α)} (hf : IsField field name read)
    (hc : Ascii field ∧ ',' ∉ field ∧ Trimmed field ∧ field ≠ s!!"*") (others : List Str)
    (ho : ∀ d ∈ others, Ascii d ∧ ',' ∉ d ∧ Trimmed d ∧ d ≠ s!!"*") (resp : Headers) :
    ∃ resp', varying (field :: others) false resp = .ok resp' ∧ ∀ old req : Headers, reuses resp' old req = .ok true →
      read old = read req := by
  obtain ⟨resp', h1, h2⟩ := C127_reuse_iff_partial (field :: others) false
    (fun d hd => (List.mem_cons.mp hd).elim (fun e => e ▸ hc) (ho d)) (.inl (by simp)) resp
  refine ⟨resp', h1, fun old req hr => ?_⟩
  obtain ⟨b, hb, hi⟩ := h2 old req
  rw [hr] at hb
  exact hf.2.1 old req ((hi.mp (Res.ok.inj hb).symm).2 field (by simp))

example (resp : Headers) : ∃ resp', varying [s!!"Accept-Encoding", s!!"Accept"] false resp = .ok resp' ∧
    ∀ old req : Headers, reuses resp' old req = .ok true → AcceptEncoding.fromHeaders old = AcceptEncoding.fromHeaders req := by
  have hf : IsField s!!"Accept-Encoding" AcceptEncoding.name AcceptEncoding.fromHeaders := by
    have := C69_fields_more (Url := Unit) (fun _ => none) 0
    tauto
  exact C127_typed hf (by decide) [s!!"Accept"] (by decide) resp

example : reuses (oneHeader s!!"vary" s!!"accept-encoding") [(s!!"accept-encoding", [s!!"br"]), (s!!"host", [s!!"a"])]
    (oneHeader s!!"accept-encoding" s!!"br") = .ok true := by decide +kernel

/-- C127 is violated by a name with a comma: it is taken for two names, so that a request with another value for it is
answered from the cache. -/
theorem C127_violated_comma (a b : Str) (ha : Ascii (a ++ ',' :: b)) (hs : s!!"*" ∉ listItems [a ++ ',' :: b]) (resp : Headers) :
    (∃ resp', varying [a ++ ',' :: b] false resp = .ok resp') ∧ ¬ CacheRight [a ++ ',' :: b] false resp := by
  refine ⟨?_, ?_⟩
  · obtain ⟨v, h, -⟩ := varying_eq (deps := [a ++ ',' :: b]) (by simpa using ha) false resp
    exact ⟨_, h⟩
  · rw [C127_right_iff_partial]
    simp [hs]

example (resp : Headers) : ¬ CacheRight [s!!"x,y"] false resp := (C127_violated_comma s!!"x" s!!"y" (by decide) (by decide) resp).2

/-- C127 is violated by a name with white space around it, which is lost on the way. -/
theorem C127_violated_space (d : Str) (ha : Ascii d) (hd : ¬ Trimmed d) (hs : s!!"*" ∉ listItems [d]) (resp : Headers) :
    (∃ resp', varying [d] false resp = .ok resp') ∧ ¬ CacheRight [d] false resp := by
  refine ⟨?_, ?_⟩
  · obtain ⟨v, h, -⟩ := varying_eq (deps := [d]) (by simpa using ha) false resp
    exact ⟨_, h⟩
  · rw [C127_right_iff_partial]
    simp [hs, hd]

example (resp : Headers) : ¬ CacheRight [s!!" x"] false resp := (C127_violated_space s!!" x" (by decide) (by decide) (by decide) resp).2

end HT
