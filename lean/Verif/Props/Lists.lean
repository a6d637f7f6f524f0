import Verif.Lemmas.Lists
import Verif.Lemmas.Cache
import Verif.Props.Simple
import Verif.Props.Tables

/-! C32–C35, C44, C52: list headers and entity tags. -/

namespace HT
open Spec

/-! ### C33: entity tags -/

theorem display_eq_etagText (e : ETag) : e.display = etagText e := by
  cases e <;> simp [ETag.display, etagText]

theorem etag_okChar {c : Char} : ETag.okChar c = true ↔ ' ' < c ∧ c ≠ '"' ∧ c.toNat ≠ 127 := by
  unfold ETag.okChar
  simp only [Bool.or_eq_true, Bool.and_eq_true, decide_eq_true_eq, beq_iff_eq]
  have h1 : ' ' < c ↔ 32 < c.toNat := by
    rw [Char.lt_def, UInt32.lt_iff_toNat_lt]; rfl
  have h2 : c = '"' ↔ c.toNat = 34 := ⟨fun h => by rw [h]; rfl, fun h => char_eq_of_toNat h⟩
  rw [h1, ne_eq, h2]
  omega

theorem etag_legal_iff {e : ETag} : EtagLegal e ↔ (etagBody e).all ETag.okChar = true := by
  unfold EtagLegal
  rw [List.all_eq_true]
  simp only [etag_okChar]

theorem stripQuoteEnd_eq_some {s r : Str} : ETag.stripQuoteEnd s = some r ↔ s = r ++ ['"'] := by
  unfold ETag.stripQuoteEnd
  constructor
  · intro h
    split at h
    · rename_i hl
      cases h
      exact (List.dropLast_append_getLast? _ hl).symm
    · cases h
  · rintro rfl
    simp

/-- Parsing accepts exactly the spelling of an entity tag with legal content (and gives that tag back),
and answers everything else with status 400. -/
theorem C33_parse_iff (s : Str) :
    (∀ e, ETag.fromStr s = .ok e ↔ s = etagText e ∧ EtagLegal e) ∧
    ((∃ e, ETag.fromStr s = .ok e) ∨ ETag.fromStr s = .err 400) := by
  have key : ∀ (isWeak : Bool) (t : Str) (e : ETag),
      (match (stripPrefix s!!"\"" t).bind ETag.stripQuoteEnd with
        | some s => if s.all ETag.okChar then (.ok (if isWeak then .weak s else .strong s) : Res ETag) else .err 400
        | none => .err 400) = .ok e ↔
      ∃ b, t = '"' :: (b ++ ['"']) ∧ e = (if isWeak then ETag.weak b else ETag.strong b) ∧ EtagLegal e := by
    intro isWeak t e
    cases hp : (stripPrefix s!!"\"" t).bind ETag.stripQuoteEnd with
    | none =>
      simp only [reduceCtorEq, false_iff]
      rintro ⟨b, rfl, -⟩
      rw [show '"' :: (b ++ ['"']) = s!!"\"" ++ (b ++ ['"']) from rfl, stripPrefix_append] at hp
      simp only [Option.bind_some] at hp
      rw [stripQuoteEnd_eq_some.mpr rfl] at hp
      cases hp
    | some b =>
      rw [Option.bind_eq_some_iff] at hp
      obtain ⟨t', h1, h2⟩ := hp
      rw [stripPrefix_eq_some] at h1
      rw [stripQuoteEnd_eq_some] at h2
      subst h2 h1
      simp only
      constructor
      · intro h
        split at h
        · rename_i ha
          cases h
          refine ⟨b, rfl, rfl, ?_⟩
          rw [etag_legal_iff]
          cases isWeak <;> exact ha
        · cases h
      · rintro ⟨b', hb, rfl, hl⟩
        have : b = b' := by simpa using hb
        subst this
        rw [etag_legal_iff] at hl
        rw [if_pos (by cases isWeak <;> exact hl)]
  constructor
  · intro e
    unfold ETag.fromStr
    cases hw : stripPrefix s!!"W/" s with
    | some t =>
      have hs := stripPrefix_eq_some.mp hw
      refine Iff.trans (key true t e) ?_
      constructor
      · rintro ⟨b, rfl, rfl, hl⟩; exact ⟨hs, hl⟩
      · rintro ⟨h, hl⟩
        cases e with
        | strong b => rw [hs] at h; simp [etagText] at h
        | weak b =>
          rw [hs] at h
          exact ⟨b, by simpa [etagText] using h, rfl, hl⟩
    | none =>
      refine Iff.trans (key false s e) ?_
      constructor
      · rintro ⟨b, rfl, rfl, hl⟩; exact ⟨rfl, hl⟩
      · rintro ⟨rfl, hl⟩
        cases e with
        | strong b => exact ⟨b, rfl, rfl, hl⟩
        | weak b =>
          rw [show etagText (.weak b) = s!!"W/" ++ ('"' :: (b ++ ['"'])) from rfl, stripPrefix_append] at hw
          cases hw
  · unfold ETag.fromStr
    simp only
    split
    · split
      · exact .inl ⟨_, rfl⟩
      · exact .inr rfl
    · exact .inr rfl

example : EtagLegal (.weak s!!"0x,beef") := by unfold EtagLegal; decide
example : ETag.fromStr s!!"W/\"0x,beef\"" = .ok (.weak s!!"0x,beef") := by decide +kernel
example : ETag.fromStr s!!"\"a\"b\"" = .err 400 := by decide +kernel
example : ETag.fromStr s!!"\"" = .err 400 := by decide +kernel

/-- Printing then parsing is the identity exactly for legal content. -/
theorem C33_print_parse (e : ETag) : ETag.fromStr e.display = .ok e ↔ EtagLegal e := by
  rw [(C33_parse_iff _).1 e, display_eq_etagText]
  simp

example : EtagLegal (.weak s!!"a b") ↔ False := by unfold EtagLegal; decide

/-- The header round-trips exactly for tags with legal ASCII content. -/
theorem C33_header_roundtrip (e : ETag) :
    RoundTrips s!!"etag" e.value ETag.fromHeaders e ↔ EtagLegal e ∧ Ascii (etagBody e) := by
  have hasc : isAscii e.display = true ↔ Ascii (etagBody e) := by
    rw [display_eq_etagText]
    cases e <;> simp only [etagText, etagBody, isAscii_cons, isAscii_append, isAscii_nil, Bool.and_eq_true] <;>
      rw [isAscii_iff] <;> unfold Ascii <;> (constructor <;> intro h) <;> first | exact h.2.1 | exact h.2.2.2.1 | skip
    all_goals refine ⟨by decide, ?_⟩
    · exact ⟨h, by decide⟩
    · exact ⟨by decide, by decide, h, by decide⟩
  constructor
  · intro h
    obtain ⟨h', v, h1, h2, h3, h4⟩ := h []
    cases h1
    have hg : Headers.get (FMap.set [] s!!"etag" [e.display]) s!!"etag" = some ([] ++ [e.display]) := get_set_self _ _ _
    have hv := h3 s!!"etag"
    rw [if_pos rfl, hg] at hv
    cases hv
    refine ⟨?_, hasc.mp (isAscii_iff.mpr h2)⟩
    have hr : ETag.fromHeaders (FMap.set [] s!!"etag" [e.display]) = (ETag.fromStr e.display).map some := readLast_snoc hg
    rw [hr] at h4
    rw [← C33_print_parse]
    cases hf : ETag.fromStr e.display <;> rw [hf] at h4 <;> cases h4
    rfl
  · rintro ⟨h1, h2⟩
    exact roundTrips_readLast e.display rfl (hasc.mpr h2) ((C33_print_parse e).mpr h1)

example : EtagLegal (.strong s!!"0xcafebeef") ∧ Ascii (etagBody (.strong s!!"0xcafebeef")) := by
  unfold EtagLegal; decide

/-- A tag made from a non-ASCII string is written as a non-ASCII header value (relevant to C04). -/
theorem C04_violated_etag : ∃ (e : ETag) (v : Str), e.value = .ok v ∧ EtagLegal e ∧ ¬ Ascii v := by
  refine ⟨.strong [Char.ofNat 233], _, rfl, ?_, ?_⟩
  · unfold EtagLegal; decide
  · decide

/-! ### C34: If-Match and If-None-Match -/

theorem etagText_ne_star (e : ETag) : etagText e ≠ s!!"*" := by
  cases e <;> simp [etagText]

theorem etagText_trimmed (e : ETag) : Trimmed (etagText e) := by
  cases e with
  | strong s =>
    constructor
    · intro c hc; simp [etagText] at hc; subst hc; decide
    · intro c hc
      rw [etagText, List.getLast?_cons, List.getLast?_append] at hc
      simp at hc; subst hc; decide
  | weak s =>
    constructor
    · intro c hc; simp [etagText] at hc; subst hc; decide
    · intro c hc
      rw [etagText, List.getLast?_cons, List.getLast?_cons, List.getLast?_cons, List.getLast?_append] at hc
      simp at hc; subst hc; decide

theorem etag_parse_clean (s : Str) : (ETag.fromStr s).Clean 400 := (C33_parse_iff s).2

/-- What reading gives: the wildcard flag tells whether `*` is a member, the tags are the other members in
order; if one of them is not an entity tag the result is status 400. Same for both headers. -/
theorem C34_reads (h : Headers) (vs : List Str) (none : Bool)
    (hv : h.get (if none then s!!"if-none-match" else s!!"if-match") = some vs) :
    let read := if none then IfMatch.noneFromHeaders h else IfMatch.fromHeaders h
    (∀ l, read = .ok (some l) ↔
      l.wildcard = decide (s!!"*" ∈ listItems vs) ∧
      List.Forall₂ (fun t e => t = etagText e ∧ EtagLegal e) ((listItems vs).filter (· ≠ s!!"*")) l.entries) ∧
    ((∃ l, read = .ok (some l)) ∨ read = .err 400) := by
  have hr : (if none then IfMatch.noneFromHeaders h else IfMatch.fromHeaders h) =
      (Res.mapM ETag.fromStr ((listItems vs).filter (· ≠ s!!"*"))).map fun es =>
        some (⟨es, decide (s!!"*" ∈ listItems vs)⟩ : StarList ETag) := by
    cases none
    · exact readStarList_some hv
    · exact readStarList_some hv
  intro read
  rw [show read = _ from hr]
  constructor
  · rintro ⟨es, w⟩
    rw [map_some_ok]
    constructor
    · rintro ⟨es', h1, h2⟩
      cases h2
      refine ⟨rfl, ?_⟩
      rw [Res.mapM_eq_ok_iff] at h1
      exact h1.imp fun t e h => ((C33_parse_iff t).1 e).mp h
    · rintro ⟨h1, h2⟩
      simp only at h1 h2
      refine ⟨es, ?_, by rw [h1]⟩
      rw [Res.mapM_eq_ok_iff]
      exact h2.imp fun t e h => ((C33_parse_iff t).1 e).mpr h
  · rcases Res.mapM_clean (l := (listItems vs).filter (· ≠ s!!"*")) (fun t _ => etag_parse_clean t) with ⟨es, h⟩ | h
    · left; rw [h]; exact ⟨_, rfl⟩
    · right; rw [h]; rfl

example : IfMatch.fromHeaders (oneHeader s!!"if-match" s!!"\"a\", *, W/\"b\"") = .ok (some ⟨[.strong s!!"a", .weak s!!"b"], true⟩) := by
  decide +kernel

/-- Exactly which lists round-trip: not the empty list without wildcard, and every tag legal, ASCII and
without a comma. Same for both headers. -/
theorem C34_roundtrip_iff_partial (l : StarList ETag) (none : Bool) :
    RoundTrips (if none then s!!"if-none-match" else s!!"if-match") (IfMatch.value l)
      (if none then IfMatch.noneFromHeaders else IfMatch.fromHeaders) l ↔
    (l.entries ≠ [] ∨ l.wildcard = true) ∧
      ∀ e ∈ l.entries, EtagLegal e ∧ Ascii (etagBody e) ∧ ',' ∉ etagBody e := by
  have hne1 : ¬ (l.entries.map ETag.display = [[]] ∧ l.wildcard = true) := by
    rintro ⟨h, -⟩
    cases hl : l.entries with
    | nil => rw [hl] at h; cases h
    | cons e es =>
      rw [hl] at h
      simp only [List.map_cons, List.cons.injEq] at h
      cases e <;> simp [ETag.display] at h
  have hval : IfMatch.value l = .ok (join s!!", " (written s!!"*" (l.entries.map ETag.display) l.wildcard)) := by
    unfold IfMatch.value
    rw [writeStar_eq hne1]
  have hbody : ∀ e, (isAscii (etagText e) = true ↔ Ascii (etagBody e)) ∧ (',' ∉ etagText e ↔ ',' ∉ etagBody e) := by
    intro e
    constructor
    · rw [isAscii_iff]
      cases e <;> simp [etagText, etagBody, Ascii] <;> (constructor <;> intro h c hc) <;>
        first | exact h c (.inl hc) | (rcases hc with hc | hc; exact h c hc; subst hc; decide)
    · cases e <;> simp [etagText, etagBody]
  constructor
  · intro h
    obtain ⟨h', v, h1, h2, h3, h4⟩ := h []
    rw [hval] at h1
    have hv := h3 (if none then s!!"if-none-match" else s!!"if-match")
    rw [if_pos rfl] at hv
    have hvv : v = join s!!", " (written s!!"*" (l.entries.map ETag.display) l.wildcard) := by
      cases h1
      rw [get_set_self] at hv
      cases hv
      rfl
    have hread := (C34_reads h' [v] none hv).1 l
    have h4' : (if none then IfMatch.noneFromHeaders h' else IfMatch.fromHeaders h') = .ok (some l) := by
      cases none <;> exact h4
    obtain ⟨hw, hf⟩ := hread.mp h4'
    constructor
    · by_cases he : l.entries = []
      · right
        cases hwl : l.wildcard with
        | true => rfl
        | false =>
          exfalso
          rw [he, hwl] at hvv
          have hv0 : v = [] := hvv
          rw [hv0, he] at hf
          have : (listItems [[]]).filter (· ≠ s!!"*") = [[]] := by decide
          rw [this] at hf
          cases hf
      · exact .inl he
    · intro e he
      have hasc : isAscii (etagText e) = true := by
        have := isAscii_of_join (by rw [← hvv]; exact isAscii_iff.mpr h2) (e.display)
          (by unfold written; simp only [List.mem_append, List.mem_map]; exact .inl ⟨e, he, rfl⟩)
        rwa [display_eq_etagText] at this
      obtain ⟨t, ht, hte⟩ : ∃ t ∈ (listItems [v]).filter (· ≠ s!!"*"), t = etagText e ∧ EtagLegal e := by
        clear hread h4' hw h4
        generalize (listItems [v]).filter (· ≠ s!!"*") = ts at hf
        generalize l.entries = es at he hf
        induction hf with
        | nil => cases he
        | cons h hs ih =>
          rcases List.mem_cons.mp he with rfl | he
          · exact ⟨_, by simp, h⟩
          · obtain ⟨t, h1, h2⟩ := ih he
            exact ⟨t, by simp [h1], h2⟩
      obtain ⟨rfl, hl⟩ := hte
      have hm := (listItems_mem (List.mem_filter.mp ht).1).1
      exact ⟨hl, (hbody e).1.mp hasc, (hbody e).2.mp hm⟩
  · rintro ⟨hne, hent⟩
    refine roundTrips_of _ hval ?_ ?_
    · apply isAscii_join (by decide)
      intro t ht
      unfold written at ht
      rcases List.mem_append.mp ht with ht | ht
      · rw [List.mem_map] at ht
        obtain ⟨e, he, rfl⟩ := ht
        rw [display_eq_etagText]
        exact (hbody e).1.mpr (hent e he).2.1
      · split at ht
        · simp at ht; subst ht; decide
        · simp at ht
    · intro h hg
      have hp : ∀ e ∈ l.entries, ',' ∉ ETag.display e ∧ Trimmed (ETag.display e) ∧ ETag.display e ≠ s!!"*" ∧
          ETag.fromStr (ETag.display e) = .ok e := by
        intro e he
        obtain ⟨a, b, c⟩ := hent e he
        rw [C33_print_parse, display_eq_etagText]
        exact ⟨(hbody e).2.mpr c, etagText_trimmed e, etagText_ne_star e, a⟩
      cases none
      · exact starList_reads_back (by decide) hne hp hg
      · exact starList_reads_back (by decide) hne hp hg

example : ∀ e ∈ [ETag.strong s!!"a", ETag.weak s!!"b"], EtagLegal e ∧ Ascii (etagBody e) ∧ ',' ∉ etagBody e := by
  simp only [EtagLegal]; decide

/-- A legal tag with a comma is not read back, and the empty list is not read back. -/
theorem C34_violated :
    (EtagLegal (.strong s!!"a,b") ∧ IfMatch.value ⟨[.strong s!!"a,b"], false⟩ = .ok s!!"\"a,b\"" ∧
      IfMatch.fromHeaders (oneHeader s!!"if-match" s!!"\"a,b\"") = .err 400) ∧
    (IfMatch.value ⟨[], false⟩ = .ok [] ∧ IfMatch.fromHeaders (oneHeader s!!"if-match" []) = .err 400) := by
  simp only [EtagLegal]
  decide +kernel

/-! ### C32: Clear-Site-Data -/

theorem clear_parse_iff (s : Str) (d : ClearDirective) : ClearDirective.fromStr s = .ok d ↔ s = d.asStr := by
  constructor
  · intro h
    unfold ClearDirective.fromStr at h
    (repeat' split at h) <;> cases h <;> assumption
  · rintro rfl; cases d <;> decide

/-- Reading gives the members in order; any member that is not one of the four directives or the wildcard
makes it panic. -/
theorem C32_reads (h : Headers) (vs : List Str) (hv : h.get s!!"clear-site-data" = some vs) :
    (∀ l, ClearSiteData.fromHeaders h = .ok (some l) ↔
      l.wildcard = decide (s!!"\"*\"" ∈ listItems vs) ∧
      (listItems vs).filter (· ≠ s!!"\"*\"") = l.entries.map ClearDirective.asStr) ∧
    (ClearSiteData.fromHeaders h = .panic ↔
      ∃ t ∈ listItems vs, t ≠ s!!"\"*\"" ∧ ∀ d : ClearDirective, t ≠ d.asStr) ∧
    (∀ e, ClearSiteData.fromHeaders h ≠ .err e) := by
  have hr : ClearSiteData.fromHeaders h = _ := readStarList_some hv
  rw [hr]
  generalize listItems vs = items
  have key : ∀ (ts : List Str), (∃ ds, Res.mapM ClearDirective.fromStr ts = .ok ds ∧ ts = ds.map ClearDirective.asStr) ∨
      (Res.mapM ClearDirective.fromStr ts = .panic ∧ ∃ t ∈ ts, ∀ d : ClearDirective, t ≠ d.asStr) := by
    intro ts
    induction ts with
    | nil => exact .inl ⟨[], rfl, rfl⟩
    | cons t ts ih =>
      rw [Res.mapM_cons]
      cases hf : ClearDirective.fromStr t with
      | err e =>
        unfold ClearDirective.fromStr at hf
        (repeat' split at hf) <;> cases hf
      | panic =>
        right
        refine ⟨rfl, t, by simp, ?_⟩
        intro d hd
        rw [(clear_parse_iff t d).mpr hd] at hf
        cases hf
      | ok d =>
        rcases ih with ⟨ds, h1, h2⟩ | ⟨h1, t', h2, h3⟩
        · left
          exact ⟨d :: ds, by simp [h1], by simp [← h2, (clear_parse_iff t d).mp hf]⟩
        · right
          exact ⟨by simp [h1], t', by simp [h2], h3⟩
  have asStr_inj : ∀ a b : List ClearDirective, a.map ClearDirective.asStr = b.map ClearDirective.asStr → a = b := by
    intro a b hab
    exact List.map_injective_iff.mpr (fun x y hxy => by
      have h1 := (clear_parse_iff x.asStr x).mpr rfl
      rw [hxy, (clear_parse_iff y.asStr y).mpr rfl] at h1
      cases h1; rfl) hab
  have hmem : (∃ t ∈ items, t ≠ s!!"\"*\"" ∧ ∀ d : ClearDirective, t ≠ d.asStr) ↔
      ∃ t ∈ items.filter (· ≠ s!!"\"*\""), ∀ d : ClearDirective, t ≠ d.asStr := by
    simp only [List.mem_filter, decide_eq_true_eq]
    constructor
    · rintro ⟨t, a, b, c⟩; exact ⟨t, ⟨a, b⟩, c⟩
    · rintro ⟨t, ⟨a, b⟩, c⟩; exact ⟨t, a, b, c⟩
  rw [hmem]
  rcases key (items.filter (· ≠ s!!"\"*\"")) with ⟨ds, h1, h2⟩ | ⟨h1, t, h2, h3⟩
  · rw [h1]
    refine ⟨?_, ?_, by intro e he; cases he⟩
    · rintro ⟨es, w⟩
      simp only [Res.map_ok, Res.ok.injEq, Option.some.injEq, StarList.mk.injEq]
      constructor
      · rintro ⟨rfl, rfl⟩; exact ⟨rfl, h2⟩
      · rintro ⟨a, b⟩; exact ⟨asStr_inj _ _ (by rw [← h2, ← b]), a.symm⟩
    · constructor
      · intro he; cases he
      · rintro ⟨t, ht, hd⟩
        rw [h2, List.mem_map] at ht
        obtain ⟨d, -, rfl⟩ := ht
        exact absurd rfl (hd d)
  · rw [h1]
    refine ⟨?_, ⟨fun _ => ⟨t, h2, h3⟩, fun _ => rfl⟩, by intro e he; cases he⟩
    intro l
    constructor
    · intro he; cases he
    · rintro ⟨-, hb⟩
      rw [hb, List.mem_map] at h2
      obtain ⟨d, -, rfl⟩ := h2
      exact absurd rfl (h3 d)

example : ClearSiteData.fromHeaders (oneHeader s!!"clear-site-data" s!!"\"cookies\", \"cache\"") =
    .ok (some ⟨[.cookies, .cache], false⟩) := by decide +kernel

/-- Every policy round-trips except the one without directive and wildcard. -/
theorem C32_roundtrip_iff_partial (l : StarList ClearDirective) :
    RoundTrips s!!"clear-site-data" (ClearSiteData.value l) ClearSiteData.fromHeaders l ↔
      l.entries ≠ [] ∨ l.wildcard = true := by
  have hne1 : ¬ (l.entries.map ClearDirective.asStr = [[]] ∧ l.wildcard = true) := by
    rintro ⟨h, -⟩
    cases hl : l.entries with
    | nil => rw [hl] at h; cases h
    | cons e es =>
      rw [hl] at h
      simp only [List.map_cons, List.cons.injEq] at h
      cases e <;> simp [ClearDirective.asStr] at h
  have hval : ClearSiteData.value l =
      .ok (join s!!", " (written s!!"\"*\"" (l.entries.map ClearDirective.asStr) l.wildcard)) := by
    unfold ClearSiteData.value
    rw [writeStar_eq hne1]
  constructor
  · intro h
    obtain ⟨h', v, h1, h2, h3, h4⟩ := h []
    by_cases he : l.entries = []
    · right
      cases hwl : l.wildcard with
      | true => rfl
      | false =>
        exfalso
        rw [hval, he, hwl] at h1
        have hh : h' = FMap.set [] s!!"clear-site-data" [[]] := by cases h1; rfl
        rw [hh] at h4
        have : ClearSiteData.fromHeaders (FMap.set [] s!!"clear-site-data" [[]]) = .panic := by decide +kernel
        rw [this] at h4
        cases h4
    · exact .inl he
  · intro hne
    refine roundTrips_of _ hval ?_ ?_
    · apply isAscii_join (by decide)
      intro t ht
      unfold written at ht
      rcases List.mem_append.mp ht with ht | ht
      · rw [List.mem_map] at ht
        obtain ⟨e, he, rfl⟩ := ht
        cases e <;> decide
      · split at ht
        · simp at ht; subst ht; decide
        · simp at ht
    · intro h hg
      refine starList_reads_back (by decide) hne ?_ hg
      intro e _
      cases e <;> decide

example : (StarList.mk [ClearDirective.cache, .executionContexts] true).entries ≠ [] := by decide

/-- The empty policy is written as an empty value on which reading panics; so does any unknown directive. -/
theorem C32_violated :
    ClearSiteData.value ⟨[], false⟩ = .ok [] ∧
    ClearSiteData.fromHeaders (oneHeader s!!"clear-site-data" []) = .panic ∧
    ClearSiteData.fromHeaders (oneHeader s!!"clear-site-data" s!!"\"cache\", \"clientHints\"") = .panic := by
  decide +kernel

/-! ### C35: Vary -/

theorem isWs_lowerC (c : Char) : isWs (lowerC c) = isWs c := by
  unfold isWs
  rw [lowerC_toNat]
  by_cases h : 65 ≤ c.toNat ∧ c.toNat ≤ 90
  · rw [if_pos h]
    have h1 : ∀ n : Nat, 65 ≤ n → n ≤ 122 → ((decide (9 ≤ n) && decide (n ≤ 13)) || n == 32 || n == 0x85 || n == 0xA0 || n == 0x1680
        || (decide (0x2000 ≤ n) && decide (n ≤ 0x200A)) || n == 0x2028 || n == 0x2029 || n == 0x202F || n == 0x205F || n == 0x3000) = false := by
      intro n a b
      simp only [Bool.or_eq_false_iff, Bool.and_eq_false_iff, decide_eq_false_iff_not, beq_eq_false_iff_ne]
      omega
    simp only
    rw [h1 _ (by omega) (by omega), h1 _ (by omega) (by omega)]
  · rw [if_neg h]

theorem trimmed_lower {s : Str} : Trimmed (lower s) ↔ Trimmed s := by
  unfold Trimmed lower
  rw [List.head?_map, List.getLast?_map]
  constructor
  · rintro ⟨h1, h2⟩
    refine ⟨fun c hc => ?_, fun c hc => ?_⟩
    · have := h1 (lowerC c) (by rw [hc]; rfl)
      rwa [isWs_lowerC] at this
    · have := h2 (lowerC c) (by rw [hc]; rfl)
      rwa [isWs_lowerC] at this
  · rintro ⟨h1, h2⟩
    refine ⟨fun c hc => ?_, fun c hc => ?_⟩
    · rw [Option.map_eq_some_iff] at hc
      obtain ⟨d, hd, rfl⟩ := hc
      rw [isWs_lowerC]; exact h1 d hd
    · rw [Option.map_eq_some_iff] at hc
      obtain ⟨d, hd, rfl⟩ := hc
      rw [isWs_lowerC]; exact h2 d hd

/-- Reading an ASCII Vary header gives its members in order, lowercased, and the wildcard flag; it never
fails. -/
theorem C35_reads (h : Headers) (vs : List Str) (hv : h.get s!!"vary" = some vs) (ha : ∀ v ∈ vs, Ascii v) :
    Vary.fromHeaders h = .ok (some
      ⟨((listItems vs).filter (· ≠ s!!"*")).map lower, decide (s!!"*" ∈ listItems vs)⟩) := by
  have hr : Vary.fromHeaders h = _ := readStarList_some hv
  rw [hr]
  rw [Res.mapM_ok_of_forall (g := lower)]
  · rfl
  · intro t ht
    have hm := (List.mem_filter.mp ht).1
    rw [trim_of_trimmed (listItems_mem hm).2]
    unfold HeaderName.fromStr
    rw [if_pos]
    unfold listItems at hm
    rw [List.mem_flatMap] at hm
    obtain ⟨v, hvm, hm⟩ := hm
    rw [List.mem_map] at hm
    obtain ⟨p, hp, rfl⟩ := hm
    rw [isAscii_iff]
    exact fun c hc => ha v hvm c (mem_of_mem_split hp (mem_of_mem_trim hc))

example : Vary.fromHeaders (oneHeader s!!"vary" s!!"Accept, *,Cookie") = .ok (some ⟨[s!!"accept", s!!"cookie"], true⟩) := by
  decide +kernel

/-- Exactly which Vary lists round-trip. Names made by the checked constructors are ASCII and lowercase, so
for those what matters is: no comma, no surrounding whitespace, not the name `*`, not the empty list, and not
the single empty name with a wildcard. -/
theorem C35_roundtrip_iff_partial (l : StarList HeaderName) :
    RoundTrips s!!"vary" (Vary.value l) Vary.fromHeaders l ↔
      (l.entries ≠ [] ∨ l.wildcard = true) ∧ ¬ (l.entries = [[]] ∧ l.wildcard = true) ∧
      ∀ n ∈ l.entries, Ascii n ∧ lower n = n ∧ ',' ∉ n ∧ Trimmed n ∧ n ≠ s!!"*" := by
  have hval : (∀ n ∈ l.entries, isAscii n = true) → Vary.value l =
      .ok (writeStar s!!"*" (writeLoop [] true l.entries) l.wildcard) := by
    intro ha
    unfold Vary.value
    rw [Res.mapM_ok_of_forall (g := id)]
    · simp
    · intro n hn
      unfold HeaderValue.fromStr HeaderName.asStr
      rw [if_pos (ha n hn)]
      rfl
  have hpanic : (∃ n ∈ l.entries, isAscii n = false) → Vary.value l = .panic := by
    rintro ⟨n, hn, ha⟩
    unfold Vary.value
    rw [Res.bind_eq_panic_iff]
    left
    clear hval
    obtain ⟨es, w⟩ := l
    simp only at hn ⊢
    induction es with
    | nil => cases hn
    | cons e es ih =>
      rw [Res.mapM_cons]
      by_cases he : isAscii e = true
      · rcases List.mem_cons.mp hn with rfl | hn
        · rw [he] at ha; cases ha
        · rw [ih hn]; simp [HeaderValue.fromStr, HeaderName.asStr, he]
      · simp [HeaderValue.fromStr, HeaderName.asStr, he]
  constructor
  · intro hrt
    have hasc : ∀ n ∈ l.entries, isAscii n = true := by
      intro n hn
      cases hna : isAscii n with
      | true => rfl
      | false =>
        obtain ⟨h', v, h1, -⟩ := hrt []
        rw [hpanic ⟨n, hn, hna⟩] at h1
        cases h1
    obtain ⟨h', v, h1, h2, h3, h4⟩ := hrt []
    have hv := h3 s!!"vary"
    rw [if_pos rfl] at hv
    have hvv : v = writeStar s!!"*" (writeLoop [] true l.entries) l.wildcard := by
      rw [hval hasc] at h1
      cases h1
      rw [get_set_self] at hv
      cases hv
      rfl
    have hread := C35_reads h' [v] hv (fun w hw => by rw [List.mem_singleton.mp hw]; exact h2)
    rw [h4] at hread
    simp only [Res.ok.injEq, Option.some.injEq] at hread
    refine ⟨?_, ?_, ?_⟩
    · by_cases he : l.entries = []
      · right
        cases hwl : l.wildcard with
        | true => rfl
        | false =>
          exfalso
          rw [he, hwl] at hvv
          have hv0 : v = [] := hvv
          rw [hv0] at hread
          have : l = ⟨[[]], false⟩ := by rw [hread]; decide
          rw [this] at he
          cases he
      · exact .inl he
    · rintro ⟨e1, e2⟩
      rw [e1, e2] at hvv
      have hv0 : v = s!!"*" := hvv
      rw [hv0] at hread
      have : l = ⟨[], true⟩ := by rw [hread]; decide
      rw [this] at e1
      cases e1
    · intro n hn
      refine ⟨isAscii_iff.mp (hasc n hn), ?_⟩
      rw [hread] at hn
      simp only [List.mem_map, List.mem_filter, decide_eq_true_eq] at hn
      obtain ⟨t, ⟨htm, hts⟩, rfl⟩ := hn
      obtain ⟨c1, c2⟩ := listItems_mem htm
      refine ⟨lower_lower t, ?_, trimmed_lower.mpr c2, ?_⟩
      · rw [mem_lower (by decide) (by decide)]; exact c1
      · intro e
        apply hts
        cases t with
        | nil => cases e
        | cons c t =>
          cases t with
          | nil =>
            simp only [lower, List.map_cons, List.map_nil, List.cons.injEq, and_true] at e
            rw [(lowerC_eq_iff (by decide) (by decide)).mp e]
          | cons d t => simp [lower] at e
  · rintro ⟨h1, h2, h3⟩
    have hasc : ∀ n ∈ l.entries, isAscii n = true := fun n hn => isAscii_iff.mpr (h3 n hn).1
    have hv := hval hasc
    rw [writeStar_eq h2] at hv
    refine roundTrips_of _ hv ?_ ?_
    · apply isAscii_join (by decide)
      intro t ht
      unfold written at ht
      rcases List.mem_append.mp ht with ht | ht
      · exact hasc t ht
      · split at ht
        · simp at ht; subst ht; decide
        · simp at ht
    · intro h hg
      refine starList_reads_back (display := id) (by decide) h1 ?_ (by rw [List.map_id]; exact hg)
      intro n hn
      obtain ⟨a, b, c, d, e⟩ := h3 n hn
      refine ⟨c, d, e, ?_⟩
      show HeaderName.fromStr (trim n) = _
      rw [trim_of_trimmed d]
      unfold HeaderName.fromStr
      rw [if_pos (isAscii_iff.mpr a), b]

example : ∀ n ∈ [s!!"user-agent", s!!"accept-encoding"],
    Ascii n ∧ lower n = n ∧ ',' ∉ n ∧ Trimmed n ∧ n ≠ s!!"*" := by decide

/-- The empty list reads back as a list with one empty name. -/
theorem C35_violated :
    Vary.value ⟨[], false⟩ = .ok [] ∧ Vary.fromHeaders (oneHeader s!!"vary" []) = .ok (some ⟨[[]], false⟩) := by
  decide +kernel

end HT
