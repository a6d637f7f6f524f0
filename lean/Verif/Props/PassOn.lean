import Verif.Spec.PassOn
import Verif.Props.RelayLists
import Verif.Props.Listed
import Verif.Props.Directives
import Verif.Props.Timings
import Verif.Props.Chain
import Verif.Props.StdDate
import Verif.Props.Codings
import Verif.Props.WrittenPrefs
import Verif.Props.WrittenFields
import Verif.Props.WrittenChain
import Verif.Props.WrittenChallenge

/-! C114: passing on a typed header keeps its meaning for others. -/

namespace HT
open Spec

theorem only_of {α : Type} {R : α → Prop} {x : α} (h : R x) (one : ∀ y z, R y → R z → y = z) : OnlyAs R x :=
  fun y => ⟨fun hy => one y x hy h, fun e => e ▸ h⟩

theorem listed_text {α : Type} {P : Str → α → Prop} {vs : List Str} {ms : List (Option α)} (hl : Listed P vs ms) {x : α}
    (hx : some x ∈ ms) : ∃ t, P t x := by
  obtain ⟨pss, -, -, hf⟩ := hl
  obtain ⟨p, -, hp⟩ := forall₂_imp_mem hf.flip _ hx
  obtain ⟨-, t, -, -, -, -, ht⟩ := hp
  exact ⟨t, ht⟩

/-! ### lists with a wildcard -/

theorem starText_one {α : Type} {P : Str → α → Prop} (hs : NoStar P) (hP : Delimited P) {v : Str} (x y : StarList α)
    (hx : StarText P v x) (hy : StarText P v y) : x = y := by
  have apart : ∀ {a b : Str} {xs : List α}, Ows a → Ows b → SomeListed P (a ++ '*' :: b) xs → False := by
    intro a b xs ha hb h
    have hne : xs ≠ [] := by obtain ⟨-, -, -, h⟩ := h; exact h
    obtain ⟨x, hx⟩ := List.exists_mem_of_ne_nil xs hne
    obtain ⟨t, ht, hi⟩ := someListed_mem h x hx
    exact star_not_list hs ha hb ht hi
  cases hx with
  | star ha hb he =>
    cases hy with
    | star => rfl
    | list h => subst he; exact (apart ha hb h).elim
  | list h =>
    cases hy with
    | star ha hb he => subst he; exact (apart ha hb h).elim
    | list h' =>
      obtain ⟨ms, h1, rfl, -⟩ := h
      obtain ⟨ms', h1', rfl, -⟩ := h'
      rw [listed_inj hP h1 h1']

/-- Elements joined by a comma and a blank. -/
theorem listed_elements {α : Type} {P : Str → α → Prop} {ts : List Str} {ms : List (Option α)} (h : List.Forall₂ (Element P) ts ms)
    (hn : ts ≠ []) : Listed P [join s!!", " ts] ms := by
  cases h with
  | nil => exact absurd rfl hn
  | @cons t m ts ms ht hts =>
    refine ⟨[t :: ts.map fun s => ' ' :: s], by simp, ?_, ?_⟩
    · have : ∀ t : Str, join s!!", " (t :: ts) = join s!!"," (t :: ts.map fun s => ' ' :: s) := by
        clear ht hts hn
        induction ts with
        | nil => intro t; rfl
        | cons u ts ih =>
          intro t
          rw [List.map_cons, join, join, ih u]
          cases ts with
          | nil => simp [join]
          | cons w ts => simp [join]
      simp [this t]
    · rw [List.flatten_singleton]
      refine .cons ht ?_
      clear ht hn
      induction hts with
      | nil => exact .nil
      | @cons u y ts xs hu _ ih =>
        refine .cons ?_ ih
        obtain ⟨a, t, b, ha, hb, rfl, hm⟩ := hu
        exact ⟨' ' :: a, t, b, fun c hc => (List.mem_cons.mp hc).elim .inl (ha c), hb, by simp, hm⟩

/-- C114. Entity tags, on however many lines, are passed on exactly if there are no empty elements among them and no
commas in them. -/
theorem C114_tags_iff_partial (h : Headers) (vs : List Str) (ms : List (Option ETag)) (isNone : Bool)
    (hv : h.get (if isNone then s!!"if-none-match" else s!!"if-match") = some vs) (hl : Listed TagText vs ms)
    (hn : ms.filterMap id ≠ []) :
    PassesOn (if isNone then IfMatch.noneFromHeaders else IfMatch.fromHeaders) IfMatch.value (StarText TagText) h
      ⟨ms.filterMap id, false⟩ ↔ none ∉ ms ∧ ∀ e, some e ∈ ms → ',' ∉ etagBody e := by
  obtain ⟨h1, h2⟩ := C99_tags_iff_partial h vs ms isNone hv hl
  have e : (if isNone then IfMatch.noneFromHeaders else IfMatch.fromHeaders) h =
      if isNone then IfMatch.noneFromHeaders h else IfMatch.fromHeaders h := by cases isNone <;> rfl
  constructor
  · rintro ⟨b, v, hb, -⟩
    by_contra hc
    rw [e, h2 hc] at hb
    cases hb
  · intro hc
    refine ⟨_, _, by rw [e]; exact h1 hc, rfl, (C108_tags_iff_partial _ _ rfl).mpr (.inr ⟨rfl, hn, fun x hx => ?_⟩)⟩
    obtain ⟨m, hm, rfl⟩ := List.mem_filterMap.mp hx
    obtain ⟨t, ht⟩ := listed_text hl hm
    exact ht.2

example : Listed TagText [s!!"\"a\"", s!!"W/\"b\" , \"c\""] [some (.strong s!!"a"), some (.weak s!!"b"), some (.strong s!!"c")] := by
  refine ⟨[[s!!"\"a\""], [s!!"W/\"b\" ", s!!" \"c\""]], by simp, rfl, ?_⟩
  simp only [List.flatten_cons, List.flatten_nil, List.cons_append, List.nil_append, List.append_nil, List.forall₂_cons,
    List.forall₂_nil_left_iff, and_true]
  refine ⟨⟨[], s!!"\"a\"", [], by simp [Ows], by simp [Ows], rfl, rfl, by simp [EtagLegal, etagBody]⟩,
    ⟨[], s!!"W/\"b\"", s!!" ", by simp [Ows], by simp [Ows], rfl, rfl, by simp [EtagLegal, etagBody]⟩,
    ⟨s!!" ", s!!"\"c\"", [], by simp [Ows], by simp [Ows], rfl, rfl, by simp [EtagLegal, etagBody]⟩⟩

/-- C114. The wildcard alone is passed on as it is. -/
theorem C114_star (h : Headers) {a b : Str} (ha : Ows a) (hb : Ows b) :
    (h.get s!!"if-match" = some [a ++ '*' :: b] →
      PassesOn IfMatch.fromHeaders IfMatch.value (StarText TagText) h ⟨[], true⟩) ∧
    (h.get s!!"if-none-match" = some [a ++ '*' :: b] →
      PassesOn IfMatch.noneFromHeaders IfMatch.value (StarText TagText) h ⟨[], true⟩) ∧
    (h.get s!!"vary" = some [a ++ '*' :: b] →
      PassesOn Vary.fromHeaders Vary.value (StarText NameText) h ⟨[], true⟩) := by
  have hi : listItems [a ++ '*' :: b] = [s!!"*"] := by
    have hc : ',' ∉ a ++ '*' :: b := by
      intro hm
      rcases List.mem_append.mp hm with hm | hm
      · rcases ha _ hm with h | h <;> cases h
      · rcases List.mem_cons.mp hm with h | hm
        · cases h
        · rcases hb _ hm with h | h <;> cases h
    simp only [listItems, List.flatMap_cons, List.flatMap_nil, List.append_nil, split_of_not_mem hc, List.map_cons, List.map_nil]
    rw [show a ++ '*' :: b = a ++ s!!"*" ++ b by simp, trim_surround (ows_ws ha) (ows_ws hb)]
    decide
  have hasc : ∀ v ∈ [a ++ '*' :: b], Ascii v := by
    intro v hv c hc
    rw [List.mem_singleton.mp hv] at hc
    rcases List.mem_append.mp hc with hm | hm
    · rcases ha _ hm with rfl | rfl <;> decide
    · rcases List.mem_cons.mp hm with rfl | hm
      · decide
      · rcases hb _ hm with rfl | rfl <;> decide
  refine ⟨fun hg => ?_, fun hg => ?_, fun hg => ?_⟩
  · refine ⟨⟨[], true⟩, _, (((C34_reads h _ false hg).1 ⟨[], true⟩).mpr ?_), rfl, (C108_tags_iff_partial _ _ rfl).mpr (.inl rfl)⟩
    rw [hi]
    exact ⟨rfl, .nil⟩
  · refine ⟨⟨[], true⟩, _, (((C34_reads h _ true hg).1 ⟨[], true⟩).mpr ?_), rfl, (C108_tags_iff_partial _ _ rfl).mpr (.inl rfl)⟩
    rw [hi]
    exact ⟨rfl, .nil⟩
  · refine ⟨⟨[], true⟩, _, ?_, rfl, (C108_vary_iff_partial _ _ rfl).mpr (.inl rfl)⟩
    rw [C35_reads h _ hg hasc, hi]
    rfl

example : PassesOn Vary.fromHeaders Vary.value (StarText NameText) (oneHeader s!!"vary" s!!" *") ⟨[], true⟩ :=
  (C114_star _ (a := s!!" ") (b := []) (by simp [Ows]) (by simp [Ows])).2.2 (by decide)

/-- C114. Field names, on however many lines, are always passed on: the empty names that are made from empty elements are
empty elements again. -/
theorem C114_vary (h : Headers) (vs : List Str) (ms : List (Option HeaderName)) (hv : h.get s!!"vary" = some vs)
    (hl : Listed NameText vs ms) (hn : ms.filterMap id ≠ []) :
    PassesOn Vary.fromHeaders Vary.value (StarText NameText) h ⟨ms.filterMap id, false⟩ := by
  have hf : List.Forall₂ (Element NameText) (ms.map (·.getD [])) ms := by
    obtain ⟨pss, -, -, hf⟩ := hl
    clear hn
    generalize pss.flatten = ps at hf
    induction hf with
    | nil => exact .nil
    | @cons p m ps ms hp _ ih =>
      refine .cons ⟨[], m.getD [], [], ows_nil, ows_nil, by simp, ?_⟩ ih
      obtain ⟨-, t, -, -, -, -, ht⟩ := hp
      cases m with
      | none => rfl
      | some n =>
        obtain ⟨h1, h2, rfl⟩ := ht
        exact ⟨Mime.token_lower h1, fun hs => h2 (lower_is_star hs), (lower_lower t).symm⟩
  have hval : Vary.value ⟨ms.map (·.getD []), false⟩ = .ok (join s!!", " (ms.map (·.getD []))) := by
    unfold Vary.value
    rw [Res.mapM_ok_of_forall (g := id)]
    · rw [List.map_id]
      show Res.ok (writeLoop [] true _) = _
      rw [writeLoop_eq]
    · intro n hn
      unfold HeaderValue.fromStr HeaderName.asStr
      rw [if_pos]
      · rfl
      · obtain ⟨m, hm, rfl⟩ := List.mem_map.mp hn
        cases m with
        | none => rfl
        | some n =>
          obtain ⟨t, ht, -, rfl⟩ := listed_text hl hm
          exact Mime.token_ascii (Mime.token_lower ht)
  refine ⟨_, _, (C99_vary_iff_partial h vs ms hv hl).1, hval, only_of (.list ⟨ms, listed_elements hf ?_, rfl, hn⟩) (starText_one noStar_name delimited_name)⟩
  rintro e
  rw [List.map_eq_nil_iff] at e
  subst e
  exact hn rfl

example : Vary.fromHeaders (oneHeader s!!"vary" s!!"Accept,, Cookie") = .ok (some ⟨[s!!"accept", [], s!!"cookie"], false⟩) ∧
    Vary.value ⟨[s!!"accept", [], s!!"cookie"], false⟩ = .ok s!!"accept, , cookie" := by decide +kernel

/-- C114. Methods, on however many lines and in whatever order they are written, are passed on as a set exactly if there
are no empty elements and the methods are those of the table in their spelling. -/
theorem C114_allow_iff_partial (h : Headers) (vs : List Str) (ms : List (Option Str)) (hv : h.get s!!"allow" = some vs)
    (hl : Listed MethodText vs ms) :
    (∃ s, Allow.fromHeaders h = .ok (some s) ∧ ∀ order : List Method, (∀ m, m ∈ order ↔ m ∈ s) →
      ∃ v, Allow.value order = .ok v ∧ OnlyAs (AsSet AllowText v) fun n => some n ∈ ms) ↔
    none ∉ ms ∧ ∀ n, some n ∈ ms → ∃ m : Method, n = m.asStr := by
  have refl : ∀ m : Method, sameName m.asStr m.asStr = true := fun m => by cases m <;> decide +kernel
  obtain ⟨h1, h2⟩ := C99_allow_iff_partial h vs ms hv hl
  constructor
  · rintro ⟨s, hs, hw⟩
    by_cases hc : none ∉ ms ∧ ∀ n, some n ∈ ms → ∃ m : Method, sameName n m.asStr = true
    · refine ⟨hc.1, fun n hn => ?_⟩
      obtain ⟨v, e, ho⟩ := hw s fun _ => Iff.rfl
      obtain ⟨xs, hx, he⟩ := (ho _).mpr rfl
      rw [(C108_allow s v e xs).mp hx] at he
      obtain ⟨m, -, rfl⟩ := List.mem_map.mp ((he n).mp hn)
      exact ⟨m, rfl⟩
    · rw [h2 hc] at hs
      cases hs
  · rintro ⟨hn, hk⟩
    obtain ⟨s, hs, -, -, hm⟩ := h1 ⟨hn, fun n hn => by obtain ⟨m, rfl⟩ := hk n hn; exact ⟨m, refl m⟩⟩
    refine ⟨s, hs, fun order ho => ⟨_, rfl, ?_⟩⟩
    have hw := C108_allow order _ rfl
    intro y
    have set : ∀ n, n ∈ order.map Method.asStr ↔ some n ∈ ms := by
      intro n
      rw [List.mem_map]
      constructor
      · rintro ⟨m, hm', rfl⟩
        exact (hm hk m).mp ((ho m).mp hm')
      · intro hn
        obtain ⟨m, rfl⟩ := hk n hn
        exact ⟨m, (ho m).mpr ((hm hk m).mpr hn), rfl⟩
    constructor
    · rintro ⟨xs, hx, he⟩
      rw [(hw xs).mp hx] at he
      funext n
      exact propext ((he n).trans (set n))
    · rintro rfl
      exact ⟨_, (hw _).mpr rfl, fun n => (set n).symm⟩

example : Allow.fromHeaders (oneHeader s!!"allow" s!!"GET, PUT ,GET") = .ok (some [.get, .put]) ∧
    Allow.value [.put, .get] = .ok s!!"PUT, GET" := by decide +kernel
example : Allow.fromHeaders (oneHeader s!!"allow" s!!"get") = .ok (some [.get]) ∧ Allow.value [.get] = .ok s!!"GET" := by decide +kernel

/-- C114. The kinds of data to clear, on however many lines, are passed on exactly if there are no empty elements and no
unknown kinds. -/
theorem C114_clear_iff_partial (h : Headers) (vs : List Str) (ms : List (Option Str)) (hv : h.get s!!"clear-site-data" = some vs)
    (hl : Listed QuotedName vs ms) (hn : ms ≠ []) :
    PassesOn ClearSiteData.fromHeaders ClearSiteData.value ClearText h (clearOf ms) ↔
      none ∉ ms ∧ ∀ n, some n ∈ ms → ∃ o, (n, o) ∈ clearNames := by
  obtain ⟨h1, h2⟩ := C99_clear_iff_partial h vs ms hv hl
  constructor
  · rintro ⟨b, v, hb, -⟩
    by_contra hc
    rw [h2 hc] at hb
    cases hb
  · intro hc
    refine ⟨_, _, h1 hc, rfl, (C108_clear_iff_partial _ _ rfl).mpr ?_⟩
    obtain ⟨m, hm⟩ := List.exists_mem_of_ne_nil ms hn
    cases m with
    | none => exact absurd hm hc.1
    | some n =>
      obtain ⟨o, ho⟩ := hc.2 n hm
      cases o with
      | none =>
        have : n = s!!"*" := by
          simp only [clearNames, List.mem_cons, Prod.mk.injEq, reduceCtorEq, and_false, List.not_mem_nil, or_false, false_or,
            and_true] at ho
          exact ho
        subst this
        exact .inr (decide_eq_true hm)
      | some d =>
        left
        intro e
        have : d ∈ (clearOf ms).entries := by
          refine List.mem_filterMap.mpr ⟨some n, hm, ?_⟩
          have table : ∀ n d, (n, some d) ∈ clearNames → (clearNames.lookup n).bind id = some d := by
            intro n d h
            simp only [clearNames, List.mem_cons, Prod.mk.injEq, Option.some.injEq, reduceCtorEq, and_false, List.not_mem_nil, or_false] at h
            rcases h with ⟨rfl, rfl⟩ | ⟨rfl, rfl⟩ | ⟨rfl, rfl⟩ | ⟨rfl, rfl⟩ <;> decide
          exact table n d ho
        rw [e] at this
        cases this

example : ClearSiteData.fromHeaders (oneHeader s!!"clear-site-data" s!!"\"*\",\"cache\"") = .ok (some ⟨[.cache], true⟩) ∧
    ClearSiteData.value ⟨[.cache], true⟩ = .ok s!!"\"cache\", \"*\"" := by decide +kernel

/-! ### directives -/

theorem cache_whole {h : Headers} {ds : List CacheDirective} (hr : Received h s!!"cache-control")
    (hx : CacheControl.fromHeaders h = .ok (some ds)) : ∀ d ∈ ds, wholeSeconds d = d := by
  obtain ⟨vs, v, hg, ha⟩ := get_of_read (fun hn => by
      unfold CacheControl.fromHeaders
      rw [show h.get CacheControl.name = none from hn]) hx hr
  obtain ⟨os, hf, rfl⟩ := ((C31_reads h _ hg ha).1 ds).mp hx
  intro d hd
  obtain ⟨o, ho, rfl⟩ := List.mem_filterMap.mp hd
  obtain ⟨t, -, ht⟩ := forall₂_left hf.flip _ ho
  exact (cachePart_whole ht).2

/-- C114. Plain cache directives, on however many lines, are passed on but for `s-maxage`. -/
theorem C114_cache (h : Headers) (vs : List Str) (dss : List (List Dir)) (os : List (Option CacheDirective))
    (hr : Received h s!!"cache-control") (hv : h.get s!!"cache-control" = some vs)
    (hd : List.Forall₂ (DirList ',') vs dss) (hm : List.Forall₂ CacheMeans dss.flatten os)
    (hc : ∀ d ∈ dss.flatten, PlainNumber d ∧ ∀ v, d.arg = some v → ',' ∉ v) (hn : os.filterMap id ≠ []) :
    PassesOn CacheControl.fromHeaders CacheControl.value CacheText h
      ((os.filterMap id).filter fun d => match d with | .sMaxAge _ => false | _ => true) := by
  have hread := C97_cache_partial h vs dss os hv (hr vs hv).2 hd hm hc
  refine ⟨_, _, hread, rfl, ?_⟩
  have := C108_cache _ hn _ rfl
  rwa [List.map_congr_left (g := id) (fun d hd => cache_whole hr hread d (List.mem_filter.mp hd).1), List.map_id] at this

example : CacheControl.fromHeaders [(s!!"cache-control", [s!!"Max-Age=5, no-cache", s!!"no-store"])] =
    .ok (some [.maxAge ⟨5, 0⟩, .noCache, .noStore]) := by decide +kernel

/-- C114. Plain cache directives, on however many lines, are passed on exactly if one of them is known and none is
`s-maxage`. -/
theorem C114_cache_iff_partial (h : Headers) (vs : List Str) (dss : List (List Dir)) (os : List (Option CacheDirective))
    (hr : Received h s!!"cache-control") (hv : h.get s!!"cache-control" = some vs)
    (hd : List.Forall₂ (DirList ',') vs dss) (hm : List.Forall₂ CacheMeans dss.flatten os)
    (hc : ∀ d ∈ dss.flatten, PlainNumber d ∧ ∀ v, d.arg = some v → ',' ∉ v) :
    PassesOn CacheControl.fromHeaders CacheControl.value CacheText h (os.filterMap id) ↔
      os.filterMap id ≠ [] ∧ ∀ x, some (.sMaxAge x) ∉ os := by
  have hread := C97_cache_partial h vs dss os hv (hr vs hv).2 hd hm hc
  have e : PassesOn CacheControl.fromHeaders CacheControl.value CacheText h (os.filterMap id) ↔
      ∀ v, CacheControl.value (os.filterMap id) = .ok v → OnlyAs (CacheText v) (os.filterMap id) := by
    constructor
    · rintro ⟨b, v, h1, h2, h3⟩ v' hv'
      rw [hread] at h1
      cases h1
      rw [hv'] at h2
      cases h2
      exact h3
    · exact fun h => ⟨_, _, hread, rfl, h _ rfl⟩
  rw [e]
  constructor
  · intro h'
    obtain ⟨h1, h2⟩ := (C108_cache_iff_partial _ _ rfl).mp (h' _ rfl)
    exact ⟨h1, fun x hx => (h2 _ (List.mem_filterMap.mpr ⟨_, hx, rfl⟩)).1 x rfl⟩
  · rintro ⟨h1, h2⟩ v hv'
    refine (C108_cache_iff_partial _ _ hv').mpr ⟨h1, fun d hd => ⟨?_, cache_whole hr hread d hd⟩⟩
    rintro x rfl
    obtain ⟨o, ho, rfl⟩ := List.mem_filterMap.mp hd
    exact h2 x ho

example : CacheControl.fromHeaders (oneHeader s!!"cache-control" s!!"max-age=60, s-maxage=30, foo") =
      .ok (some [.maxAge ⟨60, 0⟩, .sMaxAge ⟨30, 0⟩]) ∧
    CacheControl.value [.maxAge ⟨60, 0⟩, .sMaxAge ⟨30, 0⟩] = .ok s!!"max-age=60, s-max-age=30" := by decide +kernel
example : CacheControl.fromHeaders (oneHeader s!!"cache-control" s!!"foo") = .ok (some []) ∧ CacheControl.value [] = .ok [] := by
  decide +kernel

/-- C114. A policy whose directives are plain is passed on: subdomains and preloading are kept. -/
theorem C114_hsts_partial {v : Str} {ds : List Dir} {p : Hsts} (hl : DirList ';' v ds) (hm : HstsMeans ds p)
    (hp : HstsPlain ds) (hs : ∀ d ∈ ds, ∀ a, d.arg = some a → ';' ∉ a) (h : Headers) (vs : List Str)
    (hg : h.get s!!"strict-transport-security" = some (vs ++ [v])) :
    PassesOn Hsts.fromHeaders (fun p => .ok p.headerValue) HstsText h p := by
  refine ⟨p, _, C97_hsts_partial hl hm hp hs h vs hg, rfl, ?_⟩
  have := C108_hsts p
  obtain ⟨d, -, -, a, -, -, -, e⟩ := hm.maxAge
  obtain ⟨m, i, q⟩ := p
  simp only at e
  subst e
  exact this

example : Hsts.fromHeaders (oneHeader s!!"strict-transport-security" s!!"preload; max-age=60") = .ok (some ⟨⟨60, 0⟩, false, true⟩) ∧
    Hsts.headerValue ⟨⟨60, 0⟩, false, true⟩ = s!!"max-age=60;preload" := by decide +kernel

/-! ### one value -/

/-- C114. Numbers are passed on up to 2^64, the age up to 2^53. -/
theorem C114_numbers_partial {v : Str} {n : Nat} (hd : DigitText v n) (hn : n < 2 ^ 64) (h : Headers) (vs : List Str) (now : Fields) :
    (h.get s!!"content-length" = some (vs ++ [v]) → PassesOn ContentLength.fromHeaders ContentLength.value DigitText h n) ∧
    (h.get s!!"retry-after" = some (vs ++ [v]) →
      PassesOn RetryAfter.fromHeaders RetryAfter.value (RetryText now) h (.inl n)) ∧
    (n ≤ 2 ^ 53 → h.get s!!"age" = some (vs ++ [v]) → PassesOn Age.fromHeaders Age.value DigitText h n) := by
  obtain ⟨h1, h2, h3⟩ := C98_numbers_partial hd hn h vs
  refine ⟨fun hg => ?_, fun hg => ?_, fun hb hg => ?_⟩
  · exact ⟨n, _, h1 [] [] (by simp) (by simp) (by simpa using hg), rfl, C110_numbers.1 n _ rfl⟩
  · exact ⟨_, _, h2 hg, rfl, C110_retry (.dur ⟨n, 0⟩) _ rfl now⟩
  · exact ⟨_, _, h3 hb hg, rfl, C110_numbers.2 ⟨n, 0⟩ _ rfl⟩

example : PassesOn Age.fromHeaders Age.value DigitText (oneHeader s!!"age" s!!"0060") 60 :=
  (C114_numbers_partial (v := s!!"0060") ⟨by decide, by unfold Digits; decide, by decide⟩ (by decide) _ [] ⟨2020, 1, 1, 0, 0, 0⟩).2.2
    (by decide) (by decide)

theorem onlyAs_inj {α : Type} {R : α → Prop} {x y : α} (hx : OnlyAs R x) (hy : OnlyAs R y) : x = y :=
  (hy x).mp ((hx x).mpr rfl)

/-- C114. Dates in the three layouts are passed on exactly if they are read rightly; what is written is in the layout that
everybody reads alike. -/
theorem C114_dates_iff_partial (d : DateHeader) (h : Headers) (vs : List Str) (f : Fields) (w : Nat) (l : DateLayout)
    (hf : f.Standard) (hw : w < 7) (hr : Received h d.name) (hg : h.get d.name = some (vs ++ [f.written w l])) (now : Fields) :
    PassesOn d.fromHeaders d.value (DateAs now) h f.moment ↔ 1970 ≤ f.year ∧ f.second < 60 ∧ (l = .rfc850 → f.year < 2070) := by
  rw [← C103_dates_partial d h vs f w l hf hw hg]
  constructor
  · rintro ⟨t, v, h1, h2, h3⟩
    have e := onlyAs_inj h3 (C110_dates d t v h2 now)
    have : t.nanos = 0 := by
      have hd : d.fromHeaders h = (d.read (f.written w l)).map some := readLast_snoc hg
      rw [hd] at h1
      cases h4 : d.read (f.written w l) with
      | ok t' =>
        rw [h4] at h1
        cases h1
        rcases dateHeader_read d (f.written w l) with e | e <;> rw [e] at h4 <;> exact (read_date_range h4).1
      | err s => rw [h4] at h1; cases h1
      | panic => rw [h4] at h1; cases h1
    rw [h1]
    obtain ⟨s, n⟩ := t
    simp only at this e
    rw [this, e]
  · intro h1
    obtain ⟨h', v, h2, -⟩ := C88_dates d h _ hr h1 h
    cases h3 : d.value ⟨f.moment, 0⟩ with
    | ok v => exact ⟨_, v, h1, h3, C110_dates d _ v h3 now⟩
    | err s => rw [h3] at h2; cases h2
    | panic => rw [h3] at h2; cases h2

example : DateHeader.fromHeaders .date (oneHeader s!!"date" s!!"Sunday, 06-Nov-94 08:49:37 GMT") = .ok (some ⟨784111777, 0⟩) ∧
    DateHeader.value .date ⟨784111777, 0⟩ = .ok s!!"Sun, 06 Nov 1994 08:49:37 GMT" := by decide +kernel

/-- C114. Credentials are always passed on, however many spaces there are after the scheme. -/
theorem C114_credentials {v : Str} {x : Scheme × Str} (hx : CredentialsText v x) (h : Headers) (vs : List Str)
    (hg : h.get s!!"authorization" = some (vs ++ [v])) :
    PassesOn Authorization.fromHeaders (fun a => .ok a.headerValue) CredentialsText h x := by
  obtain ⟨s, c⟩ := x
  obtain ⟨t, k, ht, rfl, hc⟩ := hx
  refine ⟨_, _, C98_credentials_partial ht h vs hg, rfl, ?_⟩
  cases k with
  | zero => exact (C110_credentials_iff_partial ⟨s, c⟩).mpr hc
  | succ k => exact (C110_violated_credentials s k c hc).1

example : PassesOn Authorization.fromHeaders (fun a => .ok a.headerValue) CredentialsText
    (oneHeader s!!"authorization" s!!"bearer   abc.def") (.bearer, s!!"abc.def") :=
  C114_credentials ⟨s!!"bearer", 2, names_iff.mpr ⟨by decide, by decide⟩, rfl, by decide, by decide,
    .inl ⟨s!!"abc.def", 0, rfl, by decide, by decide⟩⟩ _ [] (by decide)

/-- C114. User and password are passed on exactly if one space is after the scheme. -/
theorem C114_basic_iff_partial {t c u p : Str} (k : Nat) (ht : Names t .basic)
    (hb : Base64Text c (utf8Encode (u ++ ':' :: p))) (hu : ':' ∉ u) (h : Headers) (vs : List Str)
    (hg : h.get s!!"authorization" = some (vs ++ [t ++ (' ' :: List.replicate k ' ' ++ c)])) :
    PassesOn BasicAuth.fromHeaders (fun b => .ok b.headerValue) BasicText h (u, p) ↔ k = 0 := by
  have hread := (C46_reads h).2 vs _ hg
  constructor
  · rintro ⟨b, v, h1, -⟩
    obtain ⟨cs, hcs, -, h64⟩ := (hread.1 b).mp h1
    have := (((C45_reads h).2 vs _ hg).1 ⟨.basic, cs⟩).mpr hcs
    rw [C98_credentials_partial ht h vs (c := List.replicate k ' ' ++ c) hg] at this
    simp only [Res.ok.injEq, Option.some.injEq, Authorization.mk.injEq] at this
    obtain ⟨-, rfl⟩ := this
    cases k with
    | zero => rfl
    | succ k => exact (base64_no_space h64 (by simp [List.replicate_succ])).elim
  · rintro rfl
    refine ⟨⟨u, p⟩, _, (hread.1 ⟨u, p⟩).mpr ⟨c, ⟨t, rfl, ht⟩, hu, hb⟩, rfl, (C110_basic_iff_partial ⟨u, p⟩).mpr hu⟩

example : PassesOn BasicAuth.fromHeaders (fun b => .ok b.headerValue) BasicText
    (oneHeader s!!"authorization" s!!"basic TWE6TWE=") (s!!"Ma", s!!"Ma") :=
  (C114_basic_iff_partial 0 (t := s!!"basic") (c := s!!"TWE6TWE=") (names_iff.mpr ⟨by decide, by decide⟩)
    ((C46_base64 _ _).mp (by decide +kernel)) (by decide) _ [] (by decide)).mpr rfl

/-! ### chains of proxies -/

/-- With names in lower case, nothing but what the chain means is read from it. -/
theorem chain_reads_meaning (v6 : Str → Option Str) {h : Headers} {es : List FwdElement} {f g : Forwarded} (hl : LegalChain es)
    (ha : Ascii (chainText es)) (hm : ChainMeans es f) (hn : LowerNames es) (hg : h.get s!!"forwarded" = some [chainText es]) :
    Forwarded.fromHeaders v6 h = .ok (some g) ↔ PlainChain es ∧ g = f := by
  constructor
  · intro hx
    have hp : PlainChain es := ((C101_reads_partial hl ha g).mp ((forwarded_ok v6 hg g).mp hx)).1
    have := (C101_meaning_partial v6 hl ha hm hg).mpr ⟨hp, hn⟩
    rw [hx] at this
    exact ⟨hp, Option.some.inj (Res.ok.inj this)⟩
  · rintro ⟨hp, rfl⟩
    exact (C101_meaning_partial v6 hl ha hm hg).mpr ⟨hp, hn⟩

/-- C114. A chain whose names are in lower case is passed on exactly if it is plain, no address is empty, and `by`, `host`
and `proto` need no quotes. -/
theorem C114_chain_iff_partial (v6 : Str → Option Str) {h : Headers} {es : List FwdElement} {f : Forwarded} (hl : LegalChain es)
    (ha : Ascii (chainText es)) (hm : ChainMeans es f) (hn : LowerNames es) (hg : h.get s!!"forwarded" = some [chainText es]) :
    PassesOn (Forwarded.fromHeaders v6) (fun f => .ok f.headerValue) ChainRead h f ↔ PlainChain es ∧ QuotableChain f := by
  constructor
  · rintro ⟨g, v, h1, h2, h3⟩
    obtain ⟨hp, rfl⟩ := (chain_reads_meaning v6 hl ha hm hn hg).mp h1
    cases h2
    exact ⟨hp, (C112_chain_iff_partial g).mp h3⟩
  · rintro ⟨hp, hq⟩
    exact ⟨f, _, (chain_reads_meaning v6 hl ha hm hn hg).mpr ⟨hp, rfl⟩, rfl, (C112_chain_iff_partial f).mpr hq⟩

example : Forwarded.fromHeaders (fun _ => none) (oneHeader s!!"forwarded" s!!"for=a, for=\"b c\";proto=http") =
      .ok (some ⟨none, [s!!"a", s!!"b c"], none, some s!!"http"⟩) ∧
    Forwarded.headerValue ⟨none, [s!!"a", s!!"b c"], none, some s!!"http"⟩ = s!!"for=a, for=\"b c\";proto=http" := by decide +kernel

/-- C114. A proxy that adds an address to such a chain is read by others as the chain before and the address, exactly if
that is so without the address and the address is text that is not empty. -/
theorem C114_chain_grown_iff_partial (v6 : Str → Option Str) {h : Headers} {es : List FwdElement} {f : Forwarded} (hl : LegalChain es)
    (ha : Ascii (chainText es)) (hm : ChainMeans es f) (hn : LowerNames es) (hg : h.get s!!"forwarded" = some [chainText es])
    (a : Str) :
    PassesOn (Forwarded.fromHeaders v6) (fun f => .ok (f.addFor a).headerValue) ChainRead h
      { f with forwardedFor := f.forwardedFor ++ [a] } ↔
    PassesOn (Forwarded.fromHeaders v6) (fun f => .ok f.headerValue) ChainRead h f ∧ a ≠ [] ∧ ∀ c ∈ a, QuotedChar c := by
  rw [C114_chain_iff_partial v6 hl ha hm hn hg]
  have grown : QuotableChain { f with forwardedFor := f.forwardedFor ++ [a] } ↔ QuotableChain f ∧ a ≠ [] ∧ ∀ c ∈ a, QuotedChar c := by
    unfold QuotableChain
    simp only [List.mem_append, List.mem_singleton]
    constructor
    · rintro ⟨h1, h2⟩
      exact ⟨⟨fun v hv => h1 v (.inl hv), h2⟩, h1 a (.inr rfl)⟩
    · rintro ⟨⟨h1, h2⟩, h3⟩
      exact ⟨fun v hv => hv.elim (h1 v) fun e => e ▸ h3, h2⟩
  constructor
  · rintro ⟨g, v, h1, h2, h3⟩
    obtain ⟨hp, rfl⟩ := (chain_reads_meaning v6 hl ha hm hn hg).mp h1
    cases h2
    obtain ⟨h4, h5⟩ := grown.mp ((C112_chain_iff_partial _).mp h3)
    exact ⟨⟨hp, h4⟩, h5⟩
  · rintro ⟨⟨hp, hq⟩, h5⟩
    exact ⟨f, _, (chain_reads_meaning v6 hl ha hm hn hg).mpr ⟨hp, rfl⟩, rfl, (C112_chain_iff_partial _).mpr (grown.mpr ⟨hq, h5⟩)⟩

example : Forwarded.fromHeaders (fun _ => none) (oneHeader s!!"forwarded" s!!"For=\"a b\", for=c;host=d") =
      .ok (some { forwardedFor := [s!!"a b", s!!"c"], host := some s!!"d" }) ∧
    (Forwarded.addFor { forwardedFor := [s!!"a b", s!!"c"], host := some s!!"d" } s!!"[2001:db8::1]").headerValue =
      s!!"for=\"a b\", for=c, for=\"[2001:db8::1]\";host=d" := by decide +kernel

/-! ### challenges -/

/-- C114. A challenge from which a clean realm was read is passed on exactly if it consisted of the realm and the charset
`UTF-8`. -/
theorem C114_challenge_iff_partial {h : Headers} {a : WwwAuthenticate} (hx : WwwAuthenticate.fromHeaders h = .ok (some a))
    (hc : CleanText a.realm) (cs : List (Str × ChallengeData)) :
    PassesOn WwwAuthenticate.fromHeaders (fun a => .ok a.headerValue) ChallengesRead h cs ↔ cs = [realmOf a.scheme a.realm] := by
  have hw := (C113_challenge_iff_partial a).mpr hc
  constructor
  · rintro ⟨b, v, h1, h2, h3⟩
    rw [hx] at h1
    cases h1
    cases h2
    exact onlyAs_inj h3 hw
  · rintro rfl
    exact ⟨a, _, hx, rfl, hw⟩

example : WwwAuthenticate.fromHeaders (oneHeader s!!"www-authenticate" s!!"digest realm=\"a\", nonce=\"b\"") =
    .ok (some ⟨.digest, s!!"a"⟩) := by decide +kernel

/-! ### preferences for codings -/

theorem thousandths_close : ∀ k < 1001, (match thousandths k with
    | .fin false m => decide (8 * gap (m * 1000) (2 ^ 149 * k) ≤ 2 ^ 149)
    | _ => false) = true := by decide +kernel

theorem weightOf_thousandths {k k' : Nat} (hk : k ≤ 1000) (h : WeightOf (thousandths k) k') : k' = k := by
  have h1 := thousandths_close k (by omega)
  obtain ⟨m, e, -, h2⟩ := h
  rw [e] at h1
  have h1 := of_decide_eq_true h1
  unfold gap at h1 h2
  generalize hD : 2 ^ 149 = D at h1 h2
  have hpos : 0 < D := by rw [← hD]; decide
  clear hD e
  by_contra hne
  rcases Nat.lt_or_gt_of_ne hne with hlt | hlt
  · have := Nat.mul_le_mul_left D (show k' + 1 ≤ k from hlt)
    rw [Nat.mul_add, Nat.mul_one] at this
    omega
  · have := Nat.mul_le_mul_left D (show k + 1 ≤ k' from hlt)
    rw [Nat.mul_add, Nat.mul_one] at this
    omega

theorem pref_weight {s n : Str} {k : Nat} {b : Bool} (h : Pref s n (some k) b) : k ≤ 1000 := by
  generalize hw : some k = w at h
  cases h with
  | bare => cases hw
  | weighted _ _ _ _ hq =>
    cases hw
    exact qvalue_le hq

/-- What others read from the proposals made of the members. -/
theorem prefs_mem {α : Type} {table : List (Str × α)} (inj : ∀ a b x, (a, x) ∈ table → (b, x) ∈ table → a = b)
    {es : List Member} (hk : ∀ e ∈ es, ∀ k, e.weight = some k → k ≤ 1000) {xs : List (Str × Option Nat)}
    (h : List.Forall₂ (SamePref table) (memberProposals table es) xs) (p : Str × Option Nat) :
    p ∈ xs ↔ ∃ e ∈ es, e.name ∈ table.map (·.1) ∧ p = (e.name, e.weight) := by
  have same : ∀ {e : Member} {r : Str × α} {p : Str × Option Nat}, e ∈ es → r ∈ table → r.1 = e.name →
      SamePref table ⟨r.2, e.weight.map thousandths⟩ p → p = (e.name, e.weight) := by
    rintro e ⟨n, x⟩ ⟨a, w⟩ he hr hn ⟨h1, h2⟩
    simp only at hn h1 h2
    rw [inj a n x h1 hr, hn]
    cases hw : e.weight with
    | none =>
      rw [hw] at h2
      rw [show w = none from h2]
    | some k =>
      rw [hw] at h2
      obtain ⟨k', rfl, h3⟩ := h2
      rw [weightOf_thousandths (hk e he k hw) h3]
  constructor
  · intro hp
    obtain ⟨q, hq, hs⟩ := forall₂_imp_mem h.flip p hp
    obtain ⟨e, he, hq⟩ := List.mem_flatMap.mp hq
    obtain ⟨r, hr, rfl⟩ := List.mem_map.mp hq
    obtain ⟨hr, hn⟩ := List.mem_filter.mp hr
    have hn := of_decide_eq_true hn
    exact ⟨e, he, List.mem_map.mpr ⟨r, hr, hn⟩, same he hr hn hs⟩
  · rintro ⟨e, he, hn, rfl⟩
    obtain ⟨r, hr, hn⟩ := List.mem_map.mp hn
    obtain ⟨y, hy, hs⟩ := forall₂_imp_mem h ⟨r.2, e.weight.map thousandths⟩
      (List.mem_flatMap.mpr ⟨e, he, List.mem_map.mpr ⟨r, List.mem_filter.mpr ⟨hr, decide_eq_true hn⟩, rfl⟩⟩)
    rw [← same he hr hn hs]
    exact hy

/-- A member that is passed on: a coding of the table in plain form, or the asterisk without weight. -/
def PlainMember {α : Type} (table : List (Str × α)) (e : Member) : Prop :=
  e.name ∈ table.map (·.1) ∧ e.plain = true ∨ e.name = s!!"*" ∧ e.weight = none

theorem prefs_pass {α : Type} {table : List (Str × α)} (inj : ∀ a b x, (a, x) ∈ table → (b, x) ∈ table → a = b)
    (star : s!!"*" ∉ table.map (·.1)) {read : Headers → Res (Option (AcceptList α))} {write : AcceptList α → Res HeaderValue}
    {h : Headers} {vs : List Str} {es : List Member} (hm : Members vs es)
    (hw : ∀ (a : AcceptList α), (∀ p ∈ a.entries, WeightOk p) → ∃ v xs, write a = .ok v ∧ List.Forall₂ (SamePref table) a.entries xs ∧
        OnlyAs (AnyListed PrefText v) (xs ++ if a.wildcard then [(s!!"*", none)] else []))
    (hr : (∀ e ∈ es, e.name ∈ table.map (·.1) → e.plain = true) →
      read h = .ok (some ⟨es.any fun e => e.name == s!!"*" && e.weight == none, memberProposals table es⟩))
    (hb : (∃ e ∈ es, e.name ∈ table.map (·.1) ∧ e.plain = false) → read h = .err 400) :
    PassesOn read write (AsSet (AnyListed PrefText)) h (fun p => ∃ e ∈ es, p = (e.name, e.weight)) ↔
      ∀ e ∈ es, PlainMember table e := by
  have hk : ∀ e ∈ es, ∀ k, e.weight = some k → k ≤ 1000 := by
    intro e he k hw
    obtain ⟨s, -, hs⟩ := forall₂_imp_mem hm.flip e he
    rw [show e.weight = some k from hw] at hs
    exact pref_weight hs
  have hok : ∀ p ∈ memberProposals table es, WeightOk p := by
    intro p hp
    obtain ⟨e, he, hp⟩ := List.mem_flatMap.mp hp
    obtain ⟨r, -, rfl⟩ := List.mem_map.mp hp
    intro x hx
    cases hw : e.weight with
    | none => simp [hw] at hx
    | some k =>
      simp only [hw, Option.map_some, Option.some.injEq] at hx
      rw [← hx]
      exact unit_thousandths (hk e he k hw)
  obtain ⟨v, xs, h1, h2, h3⟩ := hw ⟨es.any fun e => e.name == s!!"*" && e.weight == none, memberProposals table es⟩ hok
  have hx := prefs_mem inj hk h2
  simp only at h3
  have hset : ∀ p, p ∈ (xs ++ if (es.any fun e => e.name == s!!"*" && e.weight == none) = true then [(s!!"*", none)] else []) ↔
      ∃ e ∈ es, (e.name ∈ table.map (·.1) ∨ e.name = s!!"*" ∧ e.weight = none) ∧ p = (e.name, e.weight) := by
    intro p
    rw [List.mem_append, hx]
    constructor
    · rintro (⟨e, he, hn, rfl⟩ | hp)
      · exact ⟨e, he, .inl hn, rfl⟩
      · split at hp
        · rename_i hs
          obtain ⟨e, he, hs⟩ := List.any_eq_true.mp hs
          simp only [Bool.and_eq_true, beq_iff_eq] at hs
          refine ⟨e, he, .inr hs, ?_⟩
          rw [List.mem_singleton.mp hp, hs.1, hs.2]
        · cases hp
    · rintro ⟨e, he, hn | ⟨hn, hw⟩, rfl⟩
      · exact .inl ⟨e, he, hn, rfl⟩
      · right
        rw [if_pos (List.any_eq_true.mpr ⟨e, he, by simp [hn, hw]⟩), hn, hw]
        simp
  constructor
  · rintro ⟨b, v', g1, g2, g3⟩
    have hp : ∀ e ∈ es, e.name ∈ table.map (·.1) → e.plain = true := by
      intro e he hn
      by_contra hc
      rw [hb ⟨e, he, hn, by simpa using hc⟩] at g1
      cases g1
    rw [hr hp] at g1
    cases g1
    rw [h1] at g2
    cases g2
    obtain ⟨ys, hy, hs⟩ := (g3 _).mpr rfl
    rw [(h3 ys).mp hy] at hs
    intro e he
    obtain ⟨e', he', hn, heq⟩ := (hset _).mp ((hs (e.name, e.weight)).mp ⟨e, he, rfl⟩)
    obtain ⟨e1, e2⟩ := Prod.mk.inj heq
    rcases hn with hn | ⟨hn, hw⟩
    · rw [← e1] at hn
      exact .inl ⟨hn, hp e he hn⟩
    · exact .inr ⟨e1.trans hn, e2.trans hw⟩
  · intro hall
    have hp : ∀ e ∈ es, e.name ∈ table.map (·.1) → e.plain = true := by
      intro e he hn
      rcases hall e he with h | ⟨h, -⟩
      · exact h.2
      · rw [h] at hn; exact absurd hn star
    refine ⟨_, v, hr hp, h1, ?_⟩
    have heq : ∀ p, (∃ e ∈ es, p = (e.name, e.weight)) ↔
        ∃ e ∈ es, (e.name ∈ table.map (·.1) ∨ e.name = s!!"*" ∧ e.weight = none) ∧ p = (e.name, e.weight) := by
      intro p
      constructor
      · rintro ⟨e, he, rfl⟩
        exact ⟨e, he, (hall e he).imp (·.1) id, rfl⟩
      · rintro ⟨e, he, -, rfl⟩
        exact ⟨e, he, rfl⟩
    intro y
    constructor
    · rintro ⟨ys, hy, hs⟩
      rw [(h3 ys).mp hy] at hs
      funext p
      exact propext (((hs p).trans (hset p)).trans (heq p).symm)
    · rintro rfl
      exact ⟨_, (h3 _).mpr rfl, fun p => (heq p).trans (hset p).symm⟩

/-- C114. Preferences for codings, on however many lines, are passed on as a set exactly if each is for a coding of the
table in plain form or is the asterisk without weight. Weights are kept to the last decimal. -/
theorem C114_codings_iff_partial (h : Headers) (vs : List Str) (es : List Member) (hm : Members vs es) :
    (h.get AcceptEncoding.name = some vs →
      (PassesOn AcceptEncoding.fromHeaders AcceptEncoding.value (AsSet (AnyListed PrefText)) h
        (fun p => ∃ e ∈ es, p = (e.name, e.weight)) ↔ ∀ e ∈ es, PlainMember contentCodings e)) ∧
    (h.get TE.name = some vs →
      (PassesOn TE.fromHeaders TE.value (AsSet (AnyListed PrefText)) h
        (fun p => ∃ e ∈ es, p = (e.name, e.weight)) ↔ ∀ e ∈ es, PlainMember transferCodings e)) := by
  obtain ⟨h1, h2⟩ := C94_codings_partial h vs es hm
  refine ⟨fun hg => ?_, fun hg => ?_⟩
  · refine prefs_pass ?_ (by decide) hm ?_ (h1 hg).1 (h1 hg).2
    · intro a b x ha hb
      simp only [contentCodings, List.mem_cons, Prod.mk.injEq, List.not_mem_nil, or_false] at ha hb
      rcases ha with ⟨rfl, rfl⟩ | ⟨rfl, rfl⟩ | ⟨rfl, rfl⟩ | ⟨rfl, rfl⟩ | ⟨rfl, rfl⟩ <;> simp at hb <;> exact hb.symm
    · intro a ha
      obtain ⟨xs, hx⟩ := C109_codings.1 a _ ha rfl
      exact ⟨_, xs, rfl, hx⟩
  · refine prefs_pass ?_ (by decide) hm ?_ (h2 hg).1 (h2 hg).2
    · intro a b x ha hb
      simp only [transferCodings, List.mem_cons, Prod.mk.injEq, List.not_mem_nil, or_false] at ha hb
      rcases ha with ⟨rfl, rfl⟩ | ⟨rfl, rfl⟩ | ⟨rfl, rfl⟩ | ⟨rfl, rfl⟩ | ⟨rfl, rfl⟩ | ⟨rfl, rfl⟩ <;> simp at hb <;> exact hb.symm
    · intro a ha
      obtain ⟨xs, hx⟩ := C109_codings.2 a _ ha rfl
      exact ⟨_, xs, rfl, hx⟩

example : Members [s!!"gzip;q=0.5, br", s!!"*"] [⟨s!!"gzip", some 500, true⟩, ⟨s!!"br", none, true⟩, ⟨s!!"*", none, true⟩] ∧
    ∀ e ∈ [(⟨s!!"gzip", some 500, true⟩ : Member), ⟨s!!"br", none, true⟩, ⟨s!!"*", none, true⟩], PlainMember contentCodings e := by
  refine ⟨?_, ?_⟩
  · have e : (listItems [s!!"gzip;q=0.5, br", s!!"*"]).filter (· ≠ []) = [s!!"gzip;q=0.5", s!!"br", s!!"*"] := by decide
    unfold Members
    rw [e]
    refine .cons ?_ (.cons (.bare (Mime.token_of (by decide) (by decide))) (.cons (.bare (Mime.token_of (by decide) (by decide))) .nil))
    exact .weighted (n := s!!"gzip") (a := []) (b := []) (c := 'q') (t := s!!"0.5") (Mime.token_of (by decide) (by decide))
      (by simp [Ows]) (by simp [Ows]) (.inl rfl) (.zeroPoint (ds := s!!"5") (by unfold Digits; decide) (by decide))
  · intro e he
    simp only [List.mem_cons, List.not_mem_nil, or_false] at he
    rcases he with rfl | rfl | rfl
    · exact .inl ⟨by decide, rfl⟩
    · exact .inl ⟨by decide, rfl⟩
    · exact .inr ⟨rfl, rfl⟩

/-! ### codings of a body -/

theorem coding_alone {n : Str} (hn : Token n) : OnlyAs (AnyListed CodingText n) [n] := by
  have h : AnyListed CodingText n [n] := by
    refine ⟨[some n], ?_, rfl⟩
    have := listed_join (P := CodingText) (ts := [n]) (xs := [n]) (.cons ⟨hn, rfl⟩ .nil) (by simp)
    simpa [join] using this
  refine only_of h ?_
  rintro y z ⟨ms, h1, rfl⟩ ⟨ms', h2, rfl⟩
  rw [listed_inj delimited_method h1 h2]

theorem coding_names : (∀ n e, (n, e) ∈ contentCodings → Token n ∧ e.display = n) ∧
    ∀ n e, (n, e) ∈ transferCodings → Token n ∧ e.display = n := by
  refine ⟨fun n e h => ?_, fun n e h => ?_⟩
  · simp only [contentCodings, List.mem_cons, Prod.mk.injEq, List.not_mem_nil, or_false] at h
    rcases h with ⟨rfl, rfl⟩ | ⟨rfl, rfl⟩ | ⟨rfl, rfl⟩ | ⟨rfl, rfl⟩ | ⟨rfl, rfl⟩ <;>
      exact ⟨Mime.token_of (by decide) (by decide), rfl⟩
  · simp only [transferCodings, List.mem_cons, Prod.mk.injEq, List.not_mem_nil, or_false] at h
    rcases h with ⟨rfl, rfl⟩ | ⟨rfl, rfl⟩ | ⟨rfl, rfl⟩ | ⟨rfl, rfl⟩ | ⟨rfl, rfl⟩ | ⟨rfl, rfl⟩ <;>
      exact ⟨Mime.token_of (by decide) (by decide), rfl⟩

/-- C114 is violated: whatever codings are on the lines before, only the last one is passed on. A body that was encoded
twice is then decoded once. -/
theorem C114_violated_codings (h : Headers) (vs : List Str) (v n : Str) (ms : List (List (Option Str)))
    (hl : CodingLines vs ms) (hm : Listed CodingText [v] [some n]) (ns : List Str) :
    (∀ e, h.get s!!"content-encoding" = some (vs ++ [v]) → (n, e) ∈ contentCodings →
      (PassesOn (readCoding ContentEncoding.name Encoding.fromStr) (fun e => .ok e.display) (AnyListed CodingText) h ns ↔ ns = [n])) ∧
    (∀ e, h.get s!!"transfer-encoding" = some (vs ++ [v]) → (n, e) ∈ transferCodings →
      (PassesOn (readCoding TransferEncoding.name TEncoding.fromStr) (fun e => .ok e.display) (AnyListed CodingText) h ns ↔
        ns = [n])) := by
  obtain ⟨h1, h2⟩ := C104_outermost_partial h vs v n ms hl hm
  refine ⟨fun e hg hn => ?_, fun e hg hn => ?_⟩
  · obtain ⟨ht, hd⟩ := coding_names.1 n e hn
    constructor
    · rintro ⟨b, v, g1, g2, g3⟩
      rw [(h1 e hg hn).1] at g1
      cases g1
      cases g2
      rw [hd] at g3
      exact onlyAs_inj g3 (coding_alone ht)
    · rintro rfl
      exact ⟨e, _, (h1 e hg hn).1, rfl, by rw [hd]; exact coding_alone ht⟩
  · obtain ⟨ht, hd⟩ := coding_names.2 n e hn
    constructor
    · rintro ⟨b, v, g1, g2, g3⟩
      rw [(h2 e hg hn).1] at g1
      cases g1
      cases g2
      rw [hd] at g3
      exact onlyAs_inj g3 (coding_alone ht)
    · rintro rfl
      exact ⟨e, _, (h2 e hg hn).1, rfl, by rw [hd]; exact coding_alone ht⟩

example : readCoding ContentEncoding.name Encoding.fromStr [(s!!"content-encoding", [s!!"gzip", s!!"br"])] = .ok (some .brotli) := by
  decide +kernel

/-- C114. The codings on a single line are passed on exactly if there is one only, of the table and as the table spells it. -/
theorem C114_coding_iff_partial (h : Headers) (v : Str) (m : List (Option Str)) (hm : Listed CodingText [v] m) :
    (h.get s!!"content-encoding" = some [v] →
      (PassesOn (readCoding ContentEncoding.name Encoding.fromStr) (fun e => .ok e.display) (AnyListed CodingText) h (m.filterMap id) ↔
        PlainLine contentCodings m)) ∧
    (h.get s!!"transfer-encoding" = some [v] →
      (PassesOn (readCoding TransferEncoding.name TEncoding.fromStr) (fun e => .ok e.display) (AnyListed CodingText) h (m.filterMap id) ↔
        PlainLine transferCodings m)) := by
  obtain ⟨h1, h2⟩ := C104_violated_skipped h [] v [] m .nil hm
  refine ⟨fun hg => ⟨?_, ?_⟩, fun hg => ⟨?_, ?_⟩⟩
  · rintro ⟨b, v, g1, -⟩
    by_contra hc
    rw [(h1 hg hc).1 rfl] at g1
    cases g1
  · rintro ⟨n, e, rfl, hn⟩
    exact ((C114_violated_codings h [] v n [] .nil hm [n]).1 e hg hn).mpr rfl
  · rintro ⟨b, v, g1, -⟩
    by_contra hc
    rw [(h2 hg hc).1 rfl] at g1
    cases g1
  · rintro ⟨n, e, rfl, hn⟩
    exact ((C114_violated_codings h [] v n [] .nil hm [n]).2 e hg hn).mpr rfl

example : Listed CodingText [s!!"gzip"] [some s!!"gzip"] ∧ PlainLine contentCodings [some s!!"gzip"] :=
  ⟨coding_one (Mime.token_of (by decide) (by decide)), s!!"gzip", .gzip, rfl, by decide⟩

/-! ### what is lost -/

theorem passesOn_iff {β γ : Type} {read : Headers → Res (Option β)} {write : β → Res HeaderValue} {R : Str → γ → Prop} {h : Headers}
    {x : γ} (hx : PassesOn read write R h x) (y : γ) : PassesOn read write R h y ↔ y = x := by
  constructor
  · rintro ⟨b, v, g1, g2, g3⟩
    obtain ⟨b', v', k1, k2, k3⟩ := hx
    rw [k1] at g1
    cases g1
    rw [k2] at g2
    cases g2
    exact onlyAs_inj g3 k3
  · rintro rfl
    exact hx

/-- C114 is violated: the shared maximum age is not passed on. -/
theorem C114_violated_s_maxage {v : Str} (h1 : v ≠ []) (h2 : Digits v) (h3 : decValue v < 2 ^ 64) (h : Headers)
    (hg : h.get s!!"cache-control" = some [s!!"s-maxage=" ++ v]) :
    CacheText (s!!"s-maxage=" ++ v) [.sMaxAge ⟨decValue v, 0⟩] ∧
    ∀ cs, PassesOn CacheControl.fromHeaders CacheControl.value CacheText h cs ↔ cs = [] := by
  have hn : Token s!!"s-maxage" := Mime.token_of (by decide) (by decide)
  have hl : DirList ',' (s!!"s-maxage=" ++ v) [⟨s!!"s-maxage", some v, false⟩] :=
    ⟨[s!!"s-maxage=" ++ v], [some ⟨s!!"s-maxage", some v, false⟩], by simp, by simp [join],
      .cons ⟨[], s!!"s-maxage=" ++ v, [], by simp, by simp, by simp, .token (n := s!!"s-maxage") hn (digits_token h1 h2)⟩ .nil, rfl⟩
  have hm : CacheMeans ⟨s!!"s-maxage", some v, false⟩ (some (.sMaxAge ⟨decValue v, 0⟩)) :=
    .timed (n := s!!"s-maxage") (f := .sMaxAge) (by simp [cacheTimed])
      (show sameName s!!"s-maxage" s!!"s-maxage" = true by decide) rfl h1 h2
  refine ⟨⟨_, _, hl, by simp, .cons hm .nil, rfl⟩, passesOn_iff ?_⟩
  refine C114_cache h _ [[⟨s!!"s-maxage", some v, false⟩]] [some (.sMaxAge ⟨decValue v, 0⟩)] ?_ hg (.cons hl .nil) (.cons hm .nil) ?_
    (by simp)
  · intro vs hv
    rw [hg] at hv
    cases hv
    refine ⟨by simp, fun u hu c hc => ?_⟩
    rw [List.mem_singleton.mp hu] at hc
    rcases List.mem_append.mp hc with hc | hc
    · exact (show ∀ c ∈ s!!"s-maxage=", c.toNat < 128 by decide) c hc
    · exact digits_ascii h2 c hc
  · intro d hd
    simp only [List.flatten_cons, List.flatten_nil, List.append_nil, List.mem_singleton] at hd
    subst hd
    refine ⟨fun _ => ⟨rfl, fun u hu => ?_⟩, fun u hu => ?_⟩
    · cases hu; exact h3
    · cases hu; exact digits_not_mem h2 (by decide)

/-- C114 is violated: the parameters of a challenge but for its realm are lost. -/
theorem C114_violated_params (s : Scheme) {r n p : Str} (hr : CleanText r) (hn : Token n) (hp : CleanText p) (h : Headers)
    (hg : h.get s!!"www-authenticate" = some [s.toStr ++ s!!" realm=\"" ++ r ++ s!!"\", " ++ n ++ s!!"=\"" ++ p ++ s!!"\""]) :
    OnlyAs (ChallengesRead (s.toStr ++ s!!" realm=\"" ++ r ++ s!!"\", " ++ n ++ s!!"=\"" ++ p ++ s!!"\""))
      [((realmOf s r).1, .params [(s!!"realm", r), (lower n, p)])] ∧
    ∀ cs, PassesOn WwwAuthenticate.fromHeaders (fun a => .ok a.headerValue) ChallengesRead h cs ↔ cs = [realmOf s r] := by
  refine ⟨?_, ?_⟩
  · have hc := challenges_only (.cons
        (show PartText (s.toStr ++ ' ' :: (List.replicate 0 ' ' ++ (s!!"realm" ++ s!!"=\"" ++ r ++ s!!"\""))) (.first (lower s.toStr) (s!!"realm", r))
          from ⟨_, quoted_pair realm_token (by decide) (escaped_clean fun c hc => (hr c hc).2) fun c hc => (hr c hc).1, s.toStr, 0,
            (scheme_token s).1, rfl, rfl⟩)
        (.cons (show PartText (n ++ s!!"=\"" ++ p ++ s!!"\"") (.param (lower n, p)) from
          quoted_pair hn rfl (escaped_clean fun c hc => (hp c hc).2) fun c hc => (hp c hc).1) .nil))
      (.first (qs := [(lower n, p)]) .nil) (by simp)
    rw [show (realmOf s r).1 = lower s.toStr from (scheme_token s).2]
    have e : s.toStr ++ s!!" realm=\"" ++ r ++ s!!"\", " ++ n ++ s!!"=\"" ++ p ++ s!!"\"" =
        join s!!", " [s.toStr ++ ' ' :: (List.replicate 0 ' ' ++ (s!!"realm" ++ s!!"=\"" ++ r ++ s!!"\"")), n ++ s!!"=\"" ++ p ++ s!!"\""] := by
      simp [join]
    rw [e]
    exact hc
  · refine C114_challenge_iff_partial (a := ⟨s, r⟩) ((((C47_reads h).2 [] _ hg).1 ⟨s, r⟩).mpr ?_) hr
    refine ⟨s.toStr, [], s!!", " ++ n ++ s!!"=\"" ++ p ++ s!!"\"", by simp, names_toStr s, by simp, fun hm => (hr _ hm).2.1 rfl⟩

/-- C114 is violated: a chain with a port is passed on as something that nobody can read. -/
theorem C114_violated_port (v6 : Str → Option Str) {a o p : Str} (ha : Token a) (ho : Token o) (hp : Token p) (hb : '!' ∉ o ++ p)
    (h : Headers) (hg : h.get s!!"forwarded" = some [s!!"for=" ++ a ++ s!!";host=\"" ++ o ++ ':' :: p ++ s!!"\""]) :
    ChainRead (s!!"for=" ++ a ++ s!!";host=\"" ++ o ++ ':' :: p ++ s!!"\"") { forwardedFor := [a], host := some (o ++ ':' :: p) } ∧
    ∃ f, Forwarded.fromHeaders v6 h = .ok (some f) ∧ ∀ g, ¬ ChainRead f.headerValue g := by
  let es : List FwdElement := [⟨[], [some ⟨s!!"for", a, a⟩, some ⟨s!!"host", o ++ ':' :: p, '"' :: ((o ++ ':' :: p) ++ ['"'])⟩], []⟩]
  have clean : CleanText (o ++ ':' :: p) := by
    intro c hc
    have tok : ∀ {t : Str}, Token t → c ∈ t → QuotedChar c ∧ c ≠ '"' ∧ c ≠ '\\' := fun ht hc =>
      ⟨valueText_quoted (.inl ⟨rfl, ht⟩) c hc, fun e => Mime.token_not_mem ht (by decide) (e ▸ hc),
        fun e => Mime.token_not_mem ht (by decide) (e ▸ hc)⟩
    rcases List.mem_append.mp hc with hc | hc
    · exact tok ho hc
    · rcases List.mem_cons.mp hc with rfl | hc
      · exact ⟨(Mime.isQuotable_iff ':').mp (by decide), by decide, by decide⟩
      · exact tok hp hc
  have hl : LegalChain es := by
    refine ⟨by simp [es], fun e he => ?_⟩
    rw [List.mem_singleton.mp he]
    refine ⟨by simp [Ows], by simp [Ows], by simp, fun q hq => ?_, ?_⟩
    · simp only [List.mem_cons, Option.some.injEq, List.not_mem_nil, or_false] at hq
      rcases hq with rfl | rfl
      · exact ⟨show Token s!!"for" from Mime.token_of (by decide) (by decide), .inl ⟨rfl, ha⟩⟩
      · exact ⟨show Token s!!"host" from Mime.token_of (by decide) (by decide), .inr ⟨_, rfl, escaped_clean fun c hc => (clean c hc).2, fun c hc => (clean c hc).1⟩⟩
    · simp [FwdElement.given]
  have ht : chainText es = s!!"for=" ++ a ++ s!!";host=\"" ++ o ++ ':' :: p ++ s!!"\"" := by
    simp [es, chainText, fwdPairsText, fwdPairText, join]
  have e1 : chainPairs es = [(s!!"for", a), (s!!"host", o ++ ':' :: p)] := by simp [es, chainPairs, FwdElement.given]
  have hm : ChainMeans es { forwardedFor := [a], host := some (o ++ ':' :: p) } := by
    unfold ChainMeans paramValues
    rw [e1]
    refine ⟨?_, ?_, ?_, ?_⟩
    · rfl
    · rfl
    · rfl
    · rfl
  refine ⟨⟨es, hl, ht, hm⟩, { forwardedFor := [a], host := some (o ++ ':' :: p) }, ?_, fun g => C112_violated_port p ha ho g⟩
  have hasc : Ascii (chainText es) := by
    rw [ht]
    refine isAscii_iff.mp ?_
    simp [Mime.token_ascii ha, Mime.token_ascii ho, Mime.token_ascii hp]
    decide
  refine (C101_meaning_partial v6 hl hasc hm (by rw [ht]; exact hg)).mpr ⟨⟨?_, ?_, ?_, ?_, ?_⟩, ?_⟩
  · intro e he
    cases he
    rfl
  · intro e he
    rw [List.mem_singleton.mp he]
  · intro e he
    rw [List.mem_singleton.mp he]
    simp
  · intro e he q hq
    rw [List.mem_singleton.mp he] at hq
    simp only [List.mem_cons, Option.some.injEq, List.not_mem_nil, or_false] at hq
    rintro ⟨s, v, r, e1, -⟩
    have hmem : '!' ∈ q.raw := by rw [e1]; simp
    rcases hq with rfl | rfl
    · have : '"' ∈ a := by rw [show a = _ from e1]; simp
      exact Mime.token_not_mem ha (by decide) this
    · simp only [List.mem_cons, List.mem_append, List.not_mem_nil, or_false] at hmem hb
      rcases hmem with h | (h | h | h) | h
      · cases h
      · exact hb (.inl h)
      · cases h
      · exact hb (.inr h)
      · cases h
  · exact .singleton _
  · intro q hq _
    rw [e1] at hq
    simp only [List.mem_cons, List.not_mem_nil, or_false] at hq
    rcases hq with rfl | rfl <;> rfl

example (v6 : Str → Option Str) :
    ∃ f, Forwarded.fromHeaders v6 (oneHeader s!!"forwarded" s!!"for=a;host=\"example.com:8080\"") = .ok (some f) ∧
      ∀ g, ¬ ChainRead f.headerValue g :=
  (C114_violated_port v6 (a := s!!"a") (o := s!!"example.com") (p := s!!"8080") (Mime.token_of (by decide) (by decide))
    (Mime.token_of (by decide) (by decide)) (Mime.token_of (by decide) (by decide)) (by decide) _ (by decide)).2

end HT
