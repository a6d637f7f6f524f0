import Verif.Lemmas.Cache
import Verif.Props.Simple

/-! C31: Cache-Control. -/

namespace HT
open Spec

theorem lookup_mem {β : Type} {l : List (Str × β)} {n : Str} {b : β} (h : l.lookup n = some b) : (n, b) ∈ l := by
  induction l with
  | nil => cases h
  | cons e l ih =>
    obtain ⟨k, v⟩ := e
    rw [List.lookup_cons] at h
    split at h
    · rename_i hk
      cases h
      rw [LawfulBEq.eq_of_beq hk]
      simp
    · exact List.mem_cons_of_mem _ (ih h)

theorem lookup_of_mem {β : Type} {l : List (Str × β)} (hn : (l.map (·.1)).Nodup) {n : Str} {b : β} (h : (n, b) ∈ l) :
    l.lookup n = some b := by
  induction l with
  | nil => cases h
  | cons e l ih =>
    obtain ⟨k, v⟩ := e
    rw [List.map_cons, List.nodup_cons] at hn
    rw [List.lookup_cons]
    rcases List.mem_cons.mp h with h | h
    · cases h; simp
    · split
      · rename_i hk
        exfalso
        apply hn.1
        rw [← LawfulBEq.eq_of_beq hk]
        exact List.mem_map.mpr ⟨_, h, rfl⟩
      · exact ih hn.2 h

theorem lookup_none {β : Type} {l : List (Str × β)} {n : Str} : l.lookup n = none ↔ ∀ e ∈ l, n ≠ e.1 := by
  induction l with
  | nil => simp
  | cons e l ih =>
    rw [List.lookup_cons]
    split
    · rename_i hk
      simp [LawfulBEq.eq_of_beq hk]
    · rename_i hk
      rw [ih]
      simp only [List.mem_cons, forall_eq_or_imp]
      simp at hk
      exact ⟨fun h => ⟨hk, h⟩, fun h => h.2⟩

theorem flags_low : ∀ e ∈ cacheFlags, isAscii e.1 = true ∧ lower e.1 = e.1 ∧ '=' ∉ e.1 ∧ e.1 ≠ [] := by
  decide +kernel

theorem timed_low : ∀ e ∈ cacheTimed, isAscii e.1 = true ∧ lower e.1 = e.1 ∧ '=' ∉ e.1 ∧ cacheFlags.lookup e.1 = none := by
  have : ∀ n ∈ cacheTimed.map (·.1), isAscii n = true ∧ lower n = n ∧ '=' ∉ n ∧ (cacheFlags.lookup n).isNone = true := by
    decide +kernel
  intro e he
  obtain ⟨h1, h2, h3, h4⟩ := this e.1 (List.mem_map.mpr ⟨e, he, rfl⟩)
  exact ⟨h1, h2, h3, by simpa using h4⟩

theorem sameName_low {a n : Str} (ha : isAscii a = true) (hn : isAscii n = true ∧ lower n = n) :
    sameName a n = true ↔ lower a = n := by
  rw [sameName_iff, hn.2]
  simp [ha, hn.1]

theorem noeq_of_sameName {a n : Str} (h : sameName a n = true) (hn : lower n = n ∧ '=' ∉ n) : '=' ∉ a := by
  rw [sameName_iff] at h
  rw [← mem_lower (by decide) (by decide), h.2.2, hn.1]
  exact hn.2

theorem split_head {a rest : Str} (ha : '=' ∉ a) (hr : rest = [] ∨ ∃ r, rest = '=' :: r) :
    ∃ ps, split '=' (a ++ rest) = a :: ps := by
  rcases hr with rfl | ⟨r, rfl⟩
  · exact ⟨[], by rw [List.append_nil, split_of_not_mem ha]⟩
  · exact ⟨_, split_append_sep ha r⟩

/-- One member, for every string: the reader's result is what the specification says. -/
theorem cache_part_iff (p : Str) (ha : Ascii p) (o : Option CacheDirective) :
    CacheDirective.fromStr p = .ok o ↔ CachePart (trim p) o := by
  have hat : isAscii (trim p) = true := isAscii_trim (isAscii_iff.mpr ha)
  obtain ⟨next, parts, hs, hf⟩ := CacheDirective.fromStr_eq p
  generalize trim p = t at *
  -- shape of `t`
  have hshape : '=' ∉ next ∧ ((parts = [] ∧ t = next) ∨ ∃ v rest ps, parts = v :: ps ∧ t = next ++ '=' :: (v ++ rest) ∧
      '=' ∉ v ∧ (rest = [] ∨ ∃ r, rest = '=' :: r)) := by
    rcases split_cases '=' t with ⟨h1, h2⟩ | ⟨a, r, h1, h2, h3⟩
    · rw [hs] at h2
      cases h2
      exact ⟨h1, .inl ⟨rfl, rfl⟩⟩
    · rw [hs] at h3
      cases h3
      refine ⟨h1, .inr ?_⟩
      rcases split_cases '=' r with ⟨g1, g2⟩ | ⟨b, r', g1, g2, g3⟩
      · exact ⟨r, [], [], g2, by simpa using h2, g1, .inl rfl⟩
      · exact ⟨b, '=' :: r', _, g3, by rw [h2, g2], g1, .inr ⟨r', rfl⟩⟩
  obtain ⟨hne, hshape⟩ := hshape
  have hrest : ∃ rest, t = next ++ rest ∧ (rest = [] ∨ ∃ r, rest = '=' :: r) := by
    rcases hshape with ⟨-, h⟩ | ⟨v, rest, ps, -, h, -⟩
    · exact ⟨[], by simpa using h, .inl rfl⟩
    · exact ⟨_, h, .inr ⟨_, rfl⟩⟩
  have hna : isAscii next = true := by
    obtain ⟨rest, h, -⟩ := hrest
    rw [h, isAscii_append, Bool.and_eq_true] at hat
    exact hat.1
  have hhead : ∀ a ps, split '=' t = a :: ps → a = next := by
    intro a ps h
    rw [hs] at h
    cases h; rfl
  rw [hf]
  constructor
  · intro h
    by_cases ht : t = []
    · rw [if_pos ht] at h
      cases h
      subst ht
      exact CachePart.unknown (a := []) (rest := []) (by simp) (by decide) (by
        simp only [cacheTimed, List.mem_cons, List.not_mem_nil, or_false, forall_eq_or_imp, forall_eq]
        decide) (.inl rfl)
    · rw [if_neg ht] at h
      unfold CacheDirective.named at h
      split at h
      · rename_i d hd
        cases h
        have hm := lookup_mem hd
        obtain ⟨g1, g2, -, -⟩ := flags_low _ hm
        obtain ⟨rest, h1, h2⟩ := hrest
        rw [h1]
        exact .flag hm ((sameName_low hna ⟨g1, g2⟩).mpr rfl) h2
      · rename_i hd
        split at h
        · rename_i f hf'
          have hm := lookup_mem hf'
          obtain ⟨g1, g2, -, -⟩ := timed_low _ hm
          rcases hshape with ⟨h1, h2⟩ | ⟨v, rest, ps, h1, h2, h3, h4⟩
          · subst h1
            simp only [List.map_nil] at h
            split at h
            · rename_i hms
              cases h
              rw [h2]
              exact .bareStale ((sameName_low hna (by decide)).mpr hms)
            · cases h
          · subst h1
            simp only [List.map_cons, parseDur_lower] at h
            cases hd' : CacheDirective.parseDur v with
            | ok d =>
              rw [hd'] at h
              cases h
              obtain ⟨k, k1, k2, rfl⟩ := parseDur_ok.mp hd'
              rw [h2]
              exact .timed hm ((sameName_low hna ⟨g1, g2⟩).mpr rfl) k1 k2 h4
            | err e => rw [hd'] at h; cases h
            | panic => rw [hd'] at h; cases h
        · rename_i hd'
          cases h
          obtain ⟨rest, h1, h2⟩ := hrest
          rw [h1]
          refine .unknown hne ?_ ?_ h2
          · intro e he
            obtain ⟨g1, g2, -, -⟩ := flags_low _ he
            rw [← Bool.not_eq_true, sameName_low hna ⟨g1, g2⟩]
            exact lookup_none.mp hd e he
          · intro e he
            obtain ⟨g1, g2, -, -⟩ := timed_low _ he
            rw [← Bool.not_eq_true, sameName_low hna ⟨g1, g2⟩]
            exact lookup_none.mp hd' e he
  · intro h
    cases h with
    | @flag n d a rest hm hsn hr =>
      obtain ⟨g1, g2, g3, -⟩ := flags_low _ hm
      have hne' := noeq_of_sameName hsn ⟨g2, g3⟩
      obtain ⟨ps, hps⟩ := split_head hne' hr
      have := hhead _ _ hps
      subst this
      have hl := (sameName_low hna ⟨g1, g2⟩).mp hsn
      rw [if_neg]
      · unfold CacheDirective.named
        rw [hl, lookup_of_mem (by decide +kernel) hm]
      · intro h0
        have : a = [] := (List.append_eq_nil_iff.mp h0).1
        subst this
        simp only [lower_nil] at hl
        subst hl
        revert hm
        simp [cacheFlags]
    | bareStale hsn =>
      have hne' := noeq_of_sameName hsn (by decide)
      rw [split_of_not_mem hne'] at hs
      cases hs
      have hl := (sameName_low hna (by decide)).mp hsn
      rw [if_neg (by rintro rfl; cases hl), hl]
      rfl
    | @timed n f a v rest k hm hsn hv hk hr =>
      obtain ⟨g1, g2, g3, g4⟩ := timed_low _ hm
      have hne' := noeq_of_sameName hsn ⟨g2, g3⟩
      have hl := sameName_iff a n |>.mp hsn
      have hv' : '=' ∉ v := by
        obtain ⟨ds, -, h2, h3, -⟩ := hv
        have : '=' ∉ ds := fun hm => absurd (h3 _ hm).2 (by decide)
        rcases h2 with rfl | rfl
        · exact this
        · simp [this]
      obtain ⟨ps, hps⟩ := split_head hv' hr
      rw [split_append_sep hne', hps] at hs
      cases hs
      rw [if_neg (by simp)]
      unfold CacheDirective.named
      rw [hl.2.2, show lower n = n from g2, g4]
      simp only
      rw [lookup_of_mem (by
        simp only [cacheTimed, List.map_cons, List.map_nil]
        decide +kernel) hm]
      simp only [List.map_cons, parseDur_lower]
      rw [parseDur_ok.mpr ⟨k, hv, hk, rfl⟩]
      rfl
    | @unknown a rest hne' h1 h2 hr =>
      obtain ⟨ps, hps⟩ := split_head hne' hr
      have := hhead _ _ hps
      subst this
      split
      · rfl
      · unfold CacheDirective.named
        rw [lookup_none.mpr, lookup_none.mpr]
        · intro e he heq
          obtain ⟨g1, g2, -, -⟩ := timed_low _ he
          have := h2 e he
          rw [(sameName_low hna ⟨g1, g2⟩).mpr heq] at this
          cases this
        · intro e he heq
          obtain ⟨g1, g2, -, -⟩ := flags_low _ he
          have := h1 e he
          rw [(sameName_low hna ⟨g1, g2⟩).mpr heq] at this
          cases this

theorem cache_part_clean (p : Str) : (CacheDirective.fromStr p).Clean 400 := by
  obtain ⟨next, parts, -, hf⟩ := CacheDirective.fromStr_eq p
  rw [hf]
  split
  · exact .inl ⟨_, rfl⟩
  · unfold CacheDirective.named
    split
    · exact .inl ⟨_, rfl⟩
    · split
      · split
        · rename_i v _ _
          rcases parseDur_clean v with ⟨d, h⟩ | h
          · rw [h]; exact .inl ⟨_, rfl⟩
          · rw [h]; exact .inr rfl
        · split
          · exact .inl ⟨_, rfl⟩
          · exact .inr rfl
      · exact .inl ⟨_, rfl⟩

theorem cache_loop_eq (parts : List Str) (acc : List CacheDirective) :
    CacheControl.loop parts acc =
      (Res.mapM CacheDirective.fromStr parts).map fun os => acc ++ os.filterMap id := by
  induction parts generalizing acc with
  | nil => simp [CacheControl.loop, Res.map]
  | cons p ps ih =>
    rw [Res.mapM_cons]
    unfold CacheControl.loop
    cases CacheDirective.fromStr p with
    | ok o =>
      cases o <;> simp only [Res.bind_ok, ih] <;> cases Res.mapM CacheDirective.fromStr ps <;> simp [Res.map]
    | err e => rfl
    | panic => rfl

theorem cache_fromStr_trim (p : Str) : CacheDirective.fromStr (trim p) = CacheDirective.fromStr p := by
  unfold CacheDirective.fromStr
  rw [trim_trim]

theorem listItems_ascii {vs : List Str} (ha : ∀ v ∈ vs, Ascii v) : ∀ t ∈ listItems vs, Ascii t := by
  intro t ht
  unfold listItems at ht
  rw [List.mem_flatMap] at ht
  obtain ⟨v, hv, ht⟩ := ht
  rw [List.mem_map] at ht
  obtain ⟨p, hp, rfl⟩ := ht
  exact fun c hc => ha v hv c (mem_of_mem_split hp (mem_of_mem_trim hc))

theorem cache_read {h : Headers} {vs : List Str} (hv : h.get s!!"cache-control" = some vs) :
    CacheControl.fromHeaders h =
      (Res.mapM CacheDirective.fromStr (listItems vs)).map fun os => some (os.filterMap id) := by
  have : Res.mapM CacheDirective.fromStr (trimmedParts vs) = Res.mapM CacheDirective.fromStr (listItems vs) := by
    rw [← trimmedParts_map]
    generalize trimmedParts vs = ps
    induction ps with
    | nil => rfl
    | cons p ps ih => rw [List.map_cons, Res.mapM_cons, Res.mapM_cons, ih, cache_fromStr_trim]
  unfold CacheControl.fromHeaders
  rw [show h.get CacheControl.name = some vs from hv]
  simp only
  rw [cache_loop_eq, this]
  cases Res.mapM CacheDirective.fromStr (listItems vs) <;> simp [Res.map]

/-- Reading a Cache-Control header: each member is judged by itself against the table, members that denote
nothing are skipped, the rest keep their order; if some member has a malformed or missing number the
result is status 400. Reading never panics. -/
theorem C31_reads (h : Headers) (vs : List Str) (hv : h.get s!!"cache-control" = some vs) (ha : ∀ v ∈ vs, Ascii v) :
    (∀ ds, CacheControl.fromHeaders h = .ok (some ds) ↔
      ∃ os, List.Forall₂ CachePart (listItems vs) os ∧ ds = os.filterMap id) ∧
    ((∃ ds, CacheControl.fromHeaders h = .ok (some ds)) ∨ CacheControl.fromHeaders h = .err 400) := by
  rw [cache_read hv]
  have key : ∀ t ∈ listItems vs, ∀ o, CacheDirective.fromStr t = .ok o ↔ CachePart t o := by
    intro t ht o
    rw [cache_part_iff t (listItems_ascii ha t ht), trim_of_trimmed (listItems_mem ht).2]
  generalize listItems vs = items at key
  have hfa : ∀ os, List.Forall₂ (fun a b => CacheDirective.fromStr a = .ok b) items os ↔ List.Forall₂ CachePart items os := by
    intro os
    induction items generalizing os with
    | nil => cases os <;> simp
    | cons t ts ih =>
      cases os with
      | nil => simp
      | cons o os =>
        rw [List.forall₂_cons, List.forall₂_cons, key t (by simp), ih (fun t ht => key t (by simp [ht]))]
  constructor
  · intro ds
    rw [map_some_ok]
    constructor
    · rintro ⟨os, h1, rfl⟩
      exact ⟨os, (hfa os).mp (Res.mapM_eq_ok_iff.mp h1), rfl⟩
    · rintro ⟨os, h1, rfl⟩
      exact ⟨os, Res.mapM_eq_ok_iff.mpr ((hfa os).mpr h1), rfl⟩
  · rcases Res.mapM_clean (l := items) (fun t _ => cache_part_clean t) with ⟨os, h⟩ | h
    · left; rw [h]; exact ⟨_, rfl⟩
    · right; rw [h]; rfl

example : CacheControl.fromHeaders (oneHeader s!!"cache-control" s!!"No-Store, foo=1 ,MAX-AGE=60=x,max-stale") =
    .ok (some [.noStore, .maxAge ⟨60, 0⟩, .maxStale none]) := by decide +kernel
example : CacheControl.fromHeaders (oneHeader s!!"cache-control" s!!"max-age") = .err 400 := by decide +kernel
example : CacheControl.fromHeaders (oneHeader s!!"cache-control" s!!"max-age=-1") = .err 400 := by decide +kernel

theorem cache_display_reads (d : CacheDirective) (hd : SecsFit d) (hs : ∀ x, d ≠ .sMaxAge x) :
    CachePart d.display (some (wholeSeconds d)) := by
  have flag : ∀ (n : Str) (d : CacheDirective), (n, d) ∈ cacheFlags → CachePart n (some d) := by
    intro n d hm
    have h := CachePart.flag (a := n) (rest := []) hm
      ((sameName_low (flags_low _ hm).1 ⟨(flags_low _ hm).1, (flags_low _ hm).2.1⟩).mpr (flags_low _ hm).2.1) (.inl rfl)
    rwa [List.append_nil] at h
  have timed : ∀ (n : Str) (f : Duration → CacheDirective) (k : Nat), (n, f) ∈ cacheTimed → k < 2 ^ 64 →
      CachePart (n ++ '=' :: dec k) (some (f ⟨k, 0⟩)) := by
    intro n f k hm hk
    have h := CachePart.timed (a := n) (rest := []) hm
      ((sameName_low (timed_low _ hm).1 ⟨(timed_low _ hm).1, (timed_low _ hm).2.1⟩).mpr (timed_low _ hm).2.1)
      (numeral_dec k) hk (.inl rfl)
    rwa [List.append_nil] at h
  cases d with
  | maxAge d => exact timed s!!"max-age" .maxAge d.secs (by simp [cacheTimed]) hd
  | maxStale d =>
    cases d with
    | none => exact .bareStale (by decide +kernel)
    | some d => exact timed s!!"max-stale" (fun d => .maxStale (some d)) d.secs (by simp [cacheTimed]) hd
  | minFresh d => exact timed s!!"min-fresh" .minFresh d.secs (by simp [cacheTimed]) hd
  | sMaxAge d => exact absurd rfl (hs d)
  | staleIfError d => exact timed s!!"stale-if-error" .staleIfError d.secs (by simp [cacheTimed]) hd
  | staleWhileRevalidate d =>
    exact timed s!!"stale-while-revalidate" .staleWhileRevalidate d.secs (by simp [cacheTimed]) hd
  | _ => exact flag _ _ (by decide +kernel)

theorem cache_display_text (d : CacheDirective) :
    ',' ∉ d.display ∧ Trimmed d.display ∧ isAscii d.display = true := by
  have timed : ∀ (p : Str) (k : Nat), (∃ c r, p = c :: r ∧ isWs c = false) → ',' ∉ p → isAscii p = true →
      ',' ∉ p ++ dec k ∧ Trimmed (p ++ dec k) ∧ isAscii (p ++ dec k) = true := by
    intro p k ⟨c, r, hp, hc⟩ h1 h2
    refine ⟨?_, ⟨?_, ?_⟩, ?_⟩
    · rw [List.mem_append]
      rintro (h | h)
      · exact h1 h
      · exact not_mem_dec (by decide) k h
    · intro x hx
      rw [hp] at hx
      cases hx
      exact hc
    · intro x hx
      rw [List.getLast?_append] at hx
      have := (trimmed_dec k).2 x
      cases hl : (dec k).getLast? with
      | none =>
        rw [List.getLast?_eq_none_iff] at hl
        exact absurd hl (dec_ne_nil k)
      | some y =>
        rw [hl] at hx
        cases hx
        exact this hl
    · rw [isAscii_append, h2, isAscii_dec]; rfl
  cases d with
  | maxAge d => exact timed s!!"max-age=" _ ⟨_, _, rfl, by decide⟩ (by decide) (by decide)
  | maxStale d =>
    cases d with
    | none => decide
    | some d => exact timed s!!"max-stale=" _ ⟨_, _, rfl, by decide⟩ (by decide) (by decide)
  | minFresh d => exact timed s!!"min-fresh=" _ ⟨_, _, rfl, by decide⟩ (by decide) (by decide)
  | sMaxAge d => exact timed s!!"s-max-age=" _ ⟨_, _, rfl, by decide⟩ (by decide) (by decide)
  | staleIfError d => exact timed s!!"stale-if-error=" _ ⟨_, _, rfl, by decide⟩ (by decide) (by decide)
  | staleWhileRevalidate d => exact timed s!!"stale-while-revalidate=" _ ⟨_, _, rfl, by decide⟩ (by decide) (by decide)
  | _ => decide

/-- Writing any list of directives and reading it back gives the list with every `s-maxage` removed and
every duration cut to whole seconds. -/
theorem C31_written_reads (ds : List CacheDirective) (hd : ∀ d ∈ ds, SecsFit d) :
    RoundTrips s!!"cache-control" (CacheControl.value ds) CacheControl.fromHeaders
      ((ds.filter fun d => match d with | .sMaxAge _ => false | _ => true).map wholeSeconds) := by
  refine roundTrips_of (join s!!", " (ds.map CacheDirective.display)) ?_ ?_ ?_
  · unfold CacheControl.value; rw [writeLoop_eq]
  · apply isAscii_join (by decide)
    intro t ht
    rw [List.mem_map] at ht
    obtain ⟨d, -, rfl⟩ := ht
    exact (cache_display_text d).2.2
  · intro h hg
    rw [cache_read hg]
    by_cases hne : ds = []
    · subst hne; decide
    · rw [listItems_join (by simpa using hne)]
      · have hone : ∀ d ∈ ds, CacheDirective.fromStr d.display =
            .ok (match d with | .sMaxAge _ => none | d => some (wholeSeconds d)) := by
          intro d hdm
          obtain ⟨-, h1, h2⟩ := cache_display_text d
          rw [cache_part_iff _ (isAscii_iff.mp h2), trim_of_trimmed h1]
          cases d with
          | sMaxAge d =>
            refine .unknown (a := s!!"s-max-age") (rest := '=' :: dec d.secs) (by decide) (by decide) ?_ (.inr ⟨_, rfl⟩)
            simp only [cacheTimed, List.mem_cons, List.not_mem_nil, or_false, forall_eq_or_imp, forall_eq]
            decide +kernel
          | _ => exact cache_display_reads _ (hd _ hdm) (by intro x h; cases h)
        have hm : Res.mapM CacheDirective.fromStr (ds.map CacheDirective.display) =
            .ok (ds.map fun d => match d with | .sMaxAge _ => none | d => some (wholeSeconds d)) := by
          rw [Res.mapM_eq_ok_iff, List.forall₂_map_left_iff, List.forall₂_map_right_iff]
          exact List.forall₂_same.mpr hone
        rw [hm]
        simp only [Res.map_ok]
        congr 2
        clear hm hone hd hg hne
        induction ds with
        | nil => rfl
        | cons d ds ih => cases d <;> simp_all
      · intro t ht
        rw [List.mem_map] at ht
        obtain ⟨d, -, rfl⟩ := ht
        exact (cache_display_text d).1
      · intro t ht
        rw [List.mem_map] at ht
        obtain ⟨d, -, rfl⟩ := ht
        exact (cache_display_text d).2.1

example : ∀ d ∈ [CacheDirective.sMaxAge ⟨5, 0⟩, .maxStale none, .maxAge ⟨2 ^ 64 - 1, 7⟩], SecsFit d := by
  simp [SecsFit]

/-- So exactly the lists without `s-maxage` and without fractions of a second round-trip. -/
theorem C31_roundtrip_iff_partial (ds : List CacheDirective) (hd : ∀ d ∈ ds, SecsFit d) :
    RoundTrips s!!"cache-control" (CacheControl.value ds) CacheControl.fromHeaders ds ↔
      ∀ d ∈ ds, (∀ x, d ≠ .sMaxAge x) ∧ wholeSeconds d = d := by
  have h0 := C31_written_reads ds hd
  constructor
  · intro h
    obtain ⟨h1, v1, a1, -, -, d1⟩ := h []
    obtain ⟨h2, v2, a2, -, -, d2⟩ := h0 []
    rw [a1] at a2
    cases a2
    rw [d1] at d2
    have heq := Option.some.inj (Res.ok.inj d2)
    clear h h0 a1 d1 d2 hd
    induction ds with
    | nil => simp
    | cons d ds ih =>
      intro x hx
      rcases List.mem_cons.mp hx with rfl | hx'
      · cases x with
        | sMaxAge d =>
          exfalso
          have hl := congrArg List.length heq
          have hle := List.length_filter_le (fun d => match d with | .sMaxAge _ => false | _ => true) ds
          simp at hl
          omega
        | _ => exact ⟨nofun, (List.cons.inj heq).1.symm⟩
      · cases d with
        | sMaxAge d =>
          exfalso
          have hl := congrArg List.length heq
          have hle := List.length_filter_le (fun d => match d with | .sMaxAge _ => false | _ => true) ds
          simp at hl
          omega
        | _ =>
          exact ih (List.cons.inj heq).2 x hx'
  · intro h
    have : (ds.filter fun d => match d with | .sMaxAge _ => false | _ => true).map wholeSeconds = ds := by
      clear h0 hd
      induction ds with
      | nil => rfl
      | cons d ds ih =>
        obtain ⟨g1, g2⟩ := h d (by simp)
        have ih' := ih (fun d hd => h d (by simp [hd]))
        cases d with
        | sMaxAge d => exact absurd rfl (g1 d)
        | _ => exact List.cons_eq_cons.mpr ⟨g2, ih'⟩
    rwa [this] at h0

example : (∀ d ∈ [CacheDirective.maxAge ⟨60, 0⟩, .noStore], SecsFit d) ∧
    ∀ d ∈ [CacheDirective.maxAge ⟨60, 0⟩, .noStore], (∀ x, d ≠ .sMaxAge x) ∧ wholeSeconds d = d := by
  simp only [List.forall_mem_cons, List.not_mem_nil, false_implies, implies_true, and_true]
  exact ⟨⟨by unfold SecsFit; decide, by unfold SecsFit; decide⟩, ⟨by simp, rfl⟩, ⟨by simp, rfl⟩⟩

/-- The shared maximum age is lost in a round trip. -/
theorem C31_violated_s_maxage :
    CacheControl.value [.sMaxAge ⟨60, 0⟩, .publ] = .ok s!!"s-max-age=60, public" ∧
    CacheControl.fromHeaders (oneHeader s!!"cache-control" s!!"s-max-age=60, public") = .ok (some [.publ]) := by
  decide +kernel

end HT
