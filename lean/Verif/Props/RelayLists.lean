import Verif.Props.Relay
import Verif.Props.ServerTimingTrip

/-! C88 for list headers: those that settle after one trip and those that change. -/

namespace HT
open Spec

/-! ### Weighted lists -/

theorem loop_mem_items {α : Type} {parse : Str → Res (Option (Proposal α))} {parts : List Str} {acc a : AcceptList α}
    (h : AcceptList.loop parse parts acc = .ok a) :
    ∀ p ∈ a.entries, p ∈ acc.entries ∨ ∃ t ∈ parts.map trim, parse t = .ok (some p) := by
  induction parts generalizing acc with
  | nil => cases h; exact fun p hp => .inl hp
  | cons part parts ih =>
    have lift : ∀ {p : Proposal α}, (∃ t ∈ parts.map trim, parse t = .ok (some p)) →
        ∃ t ∈ (part :: parts).map trim, parse t = .ok (some p) := fun ⟨t, ht, h⟩ => ⟨t, by simp [ht], h⟩
    unfold AcceptList.loop at h
    simp only at h
    split at h
    · exact fun p hp => (ih h p hp).imp_right lift
    · split at h
      · exact fun p hp => (ih h p hp).imp_right lift
      · rw [Res.bind_eq_ok_iff] at h
        obtain ⟨e, he, h⟩ := h
        cases e with
        | none => exact fun p hp => (ih h p hp).imp_right lift
        | some q =>
          intro p hp
          rcases ih h p hp with h' | h'
          · rcases List.mem_append.mp h' with h'' | h''
            · exact .inl h''
            · simp only [List.mem_singleton] at h''; subst h''; exact .inr ⟨_, by simp, he⟩
          · exact .inr (lift h')

/-- What is read from an Accept header can stand in one. -/
theorem accept_read {h : Headers} {a : AcceptList Mime} (hr : Received h s!!"accept")
    (hx : Accept.fromHeaders h = .ok (some a)) : ∀ p ∈ a.entries, AcceptType p.item ∧ p.weight ≠ none := by
  unfold Accept.fromHeaders AcceptList.fromHeaders at hx
  cases hg : h.get Accept.name with
  | none => rw [hg] at hx; cases hx
  | some vs =>
    rw [hg] at hx
    simp only at hx
    cases hl : AcceptList.loop Accept.parse (trimmedParts vs) AcceptList.new with
    | err t => rw [hl] at hx; cases hx
    | panic => rw [hl] at hx; cases hx
    | ok b =>
      rw [hl] at hx
      cases hx
      intro p hp
      rcases loop_mem_items hl p hp with h' | ⟨t, ht, h'⟩
      · cases h'
      · rw [trimmedParts_map] at ht
        have hasc := listItems_ascii (hr vs hg).2 t ht
        have hcomma := (listItems_mem ht).1
        have hm : Proposal.mediaFromStr t = .ok p := by
          unfold Accept.parse at h'
          cases hm : Proposal.mediaFromStr t <;> rw [hm] at h' <;> cases h'
          rfl
        obtain ⟨m, hpm, hi, x, hw, -, -⟩ := (C40_media t p).mp hm
        have hwf := C23_wf hpm
        have hwf' : MimeWF (m.removeParam s!!"q").2 ∧ (∀ e ∈ (m.removeParam s!!"q").2.params, e ∈ m.params) ∧
            ∀ e ∈ (m.removeParam s!!"q").2.params, e.1 ≠ s!!"q" := by
          unfold Mime.removeParam
          rw [if_neg (fun h => absurd h.1 (by decide))]
          split
          · rename_i hf
            rw [List.find?_eq_none] at hf
            exact ⟨hwf, fun e he => he, fun e he => by simpa using hf e he⟩
          · obtain ⟨h1, h2, h3, h4, h5, h6, h7⟩ := hwf
            have hsub : ∀ e ∈ m.params.eraseP (fun e => e.1 == s!!"q"), e ∈ m.params :=
              fun e he => List.mem_of_mem_eraseP he
            refine ⟨⟨h1, h2, h3, fun e he => h4 e (hsub e he), ?_, fun e he => h6 e (hsub e he),
              fun he => h7 (hsub _ he)⟩, hsub, ?_⟩
            · exact h5.sublist (List.Sublist.map _ List.eraseP_sublist)
            · rename_i e0 hf
              obtain ⟨ha, as, bs, e1, e2⟩ := List.find?_eq_some_iff_append.mp hf
              have hq : e0.1 = s!!"q" := by simpa using ha
              simp only
              rw [e1, List.eraseP_append_right _ (fun e he => by simpa using e2 e he), List.eraseP_cons_of_pos (p := fun e : Str × Str => e.1 == s!!"q") ha]
              intro e he heq
              rw [e1, List.map_append, List.map_cons] at h5
              rcases List.mem_append.mp he with he | he
              · have := e2 e he
                rw [heq] at this
                exact absurd this (by decide)
              · have := (List.nodup_append.mp h5).2.1
                rw [List.nodup_cons] at this
                refine this.1 ?_
                rw [hq, ← heq]
                exact List.mem_map_of_mem he
        have hchars : ∀ {P : Char → Prop}, (∀ c ∈ t, P c) → (∀ c, TChar c → P c) → (∀ c ∈ s!!"/;=\"\\", P c) →
            ∀ c ∈ p.item.display, P c := by
          intro P h1 h2 h3
          rw [hi]
          exact Mime.display_chars hwf'.1 (fun e he c hc => Mime.parse_chars h1 hpm e (hwf'.2.1 e he) c hc) h2 h3
        refine ⟨⟨hi ▸ hwf'.1, ?_, ?_, hi ▸ hwf'.2.2⟩, by rw [hw]; simp⟩
        · refine hchars hasc (fun c hc => ?_) (by decide)
          have := Mime.tchar_nat hc
          omega
        · intro hc
          refine hchars (P := (· ≠ ',')) (fun c hc e => hcomma (e ▸ hc)) (fun c hc e => ?_) (by decide) ',' hc rfl
          subst e
          exact absurd ((Mime.isToken_iff _).mpr hc) (by decide)

/-- C88 (weights): Accept-Encoding, TE and Accept arrive with their weights rounded to three decimals, and from then
on nothing changes. -/
theorem C88_weights :
    (∀ h a, Received h AcceptEncoding.name → AcceptEncoding.fromHeaders h = .ok (some a) →
      ∃ b, RoundTrips AcceptEncoding.name (AcceptEncoding.value a) AcceptEncoding.fromHeaders b ∧
        RoundTrips AcceptEncoding.name (AcceptEncoding.value b) AcceptEncoding.fromHeaders b ∧
        b.wildcard = a.wildcard ∧ List.Forall₂ Rounded a.entries b.entries) ∧
    (∀ h a, Received h TE.name → TE.fromHeaders h = .ok (some a) →
      ∃ b, RoundTrips TE.name (TE.value a) TE.fromHeaders b ∧ RoundTrips TE.name (TE.value b) TE.fromHeaders b ∧
        b.wildcard = a.wildcard ∧ List.Forall₂ Rounded a.entries b.entries) ∧
    (∀ h a, Received h s!!"accept" → Accept.fromHeaders h = .ok (some a) →
      ∃ b, RoundTrips s!!"accept" (Accept.value a) Accept.fromHeaders b ∧
        RoundTrips s!!"accept" (Accept.value b) Accept.fromHeaders b ∧
        b.wildcard = a.wildcard ∧ List.Forall₂ Rounded a.entries b.entries) := by
  refine ⟨fun h a _ hx => ?_, fun h a _ hx => ?_, fun h a hr hx => ?_⟩
  · obtain ⟨ps, h1, h2, h3, -⟩ := C41_round_trip.1 a (C40_invariant.1 h a hx)
    obtain ⟨h', v, -, -, -, hb⟩ := h1 []
    obtain ⟨qs, g1, -, -, g4⟩ := C41_round_trip.1 ⟨a.wildcard, ps⟩ (C40_invariant.1 h' _ hb)
    rw [g4 h3] at g1
    exact ⟨_, h1, g1, rfl, h2⟩
  · obtain ⟨ps, h1, h2, h3, -⟩ := C41_round_trip.2 a (C40_invariant.2.1 h a hx)
    obtain ⟨h', v, -, -, -, hb⟩ := h1 []
    obtain ⟨qs, g1, -, -, g4⟩ := C41_round_trip.2 ⟨a.wildcard, ps⟩ (C40_invariant.2.1 h' _ hb)
    rw [g4 h3] at g1
    exact ⟨_, h1, g1, rfl, h2⟩
  · have hread := accept_read hr hx
    obtain ⟨ps, h1, h2, h3, -⟩ := C41_media_partial a (C40_invariant.2.2.1 h a hx) fun p hp => (hread p hp).1
    obtain ⟨h', v, -, hv, hn, hb⟩ := h1 []
    have hr' : Received h' s!!"accept" := by
      intro vs hvs
      rw [hn, if_pos rfl] at hvs
      cases hvs
      exact ⟨by simp, fun u hu => by rw [List.mem_singleton.mp hu]; exact hv⟩
    have hread' := accept_read hr' hb
    obtain ⟨qs, g1, -, -, g4⟩ := C41_media_partial ⟨a.wildcard, ps⟩ (C40_invariant.2.2.1 h' _ hb) fun p hp => (hread' p hp).1
    rw [g4 h3] at g1
    refine ⟨_, h1, g1, rfl, ?_⟩
    have hsome : ∀ p ∈ a.entries, p.weight ≠ none := fun p hp => (hread p hp).2
    generalize a.entries = es at h2 hsome
    show List.Forall₂ Rounded es ps
    clear h1 h3 hb hread' g1 g4
    induction h2 with
    | nil => exact .nil
    | cons hpq _ ih =>
      refine .cons ⟨hpq.1, .inr ?_⟩ (ih fun p hp => hsome p (by simp [hp]))
      rcases hpq.2 with ⟨e, -⟩ | h
      · exact absurd e (hsome _ (by simp))
      · exact h

example : Received (oneHeader s!!"accept" s!!"text/html;q=0.12345, */*") s!!"accept" := by
  intro vs h
  cases h
  exact ⟨by simp, fun v hv => by rw [List.mem_singleton.mp hv]; decide⟩

/-! ### Server-Timing -/

theorem shape_mem {p k v : Str} (h : Shape p k v) : (∀ c ∈ v, c ∈ p) ∧ '=' ∉ v := by
  obtain ⟨w, w', w'', rest, e, -, -, -, -, hv, -⟩ := h
  exact ⟨fun c hc => by rw [e]; simp [hc], hv⟩

theorem millis_range {x : Fl} {d : Duration} (h : MillisAre x d) : d.secs < 2 ^ 64 ∧ d.nanos < 1000000000 := by
  cases x with
  | fin neg m =>
    obtain ⟨-, hm, hn, r, ⟨hr, -⟩, hd⟩ := h
    refine ⟨?_, hn⟩
    have hB : 0 < 2 ^ 1074 := Nat.two_pow_pos 1074
    generalize 2 ^ 1074 = B at *
    have h1 : B * r ≤ m * 1000000000 + B := by
      unfold gap at hr
      omega
    have h2 : m * 1000000000 < B * (2 ^ 64 * 1000000000) := by
      have : m * 1000000000 < 2 ^ 64 * B * 1000000000 := by omega
      calc m * 1000000000 < 2 ^ 64 * B * 1000000000 := this
        _ = B * (2 ^ 64 * 1000000000) := by ring
    have h3 : B * r < B * (2 ^ 64 * 1000000000 + 1) := by rw [Nat.mul_add]; omega
    have h4 := Nat.lt_of_mul_lt_mul_left h3
    omega
  | inf _ => exact h.elim
  | nan => exact h.elim

theorem lastDur_mem {ss : List Said} {d : Duration} (h : lastDur ss = some d) : Said.dur d ∈ ss := by
  unfold lastDur at h
  have := List.mem_of_getLast? h
  rw [List.mem_filterMap] at this
  obtain ⟨s, hs, e⟩ := this
  cases s <;> simp at e
  subst e
  exact hs

theorem lastDesc_mem {ss : List Said} {t : Str} (h : lastDesc ss = some t) : Said.desc t ∈ ss := by
  unfold lastDesc at h
  have := List.mem_of_getLast? h
  rw [List.mem_filterMap] at this
  obtain ⟨s, hs, e⟩ := this
  cases s <;> simp at e
  subst e
  exact hs

/-- What is read from a Server-Timing entry is plain. -/
theorem entry_plain {e : Str} {m : Metric} (h : EntryText e m) (hc : ',' ∉ e) (ht : Trimmed e) (ha : Ascii e) :
    PlainMetric m ∧ MetricOk m := by
  obtain ⟨n, ps, ss, hs, hf, hn, hd, hdesc⟩ := h
  have hpiece : ∀ q ∈ n :: ps, (∀ c ∈ q, c ∈ e) ∧ ';' ∉ q := by
    intro q hq
    rw [← hs] at hq
    exact ⟨fun c hc => mem_of_mem_split hq hc, not_mem_of_mem_split hq⟩
  obtain ⟨hn1, hn2⟩ := hpiece n (by simp)
  obtain ⟨w, hw, -⟩ := trimEnd_prefix n
  have hsub : ∀ c ∈ m.name, c ∈ n := by
    intro c hc
    rw [hn] at hc
    rw [hw]
    exact List.mem_append_left _ hc
  have hhead : ∀ c, m.name.head? = some c → isWs c = false := by
    intro c hcm
    rw [hn] at hcm
    refine ht.1 c ?_
    have : n.head? = some c := by
      rw [hw, List.head?_append, hcm]; rfl
    have hj := join_split ';' e
    rw [hs] at hj
    rw [← hj]
    cases ps with
    | nil => exact this
    | cons p ps =>
      simp only [join, List.append_assoc, List.head?_append, this, Option.some_or]
  have hdescr : ∀ t, m.desc = some t → (∀ c ∈ t, c ∈ e) ∧ ';' ∉ t ∧ '=' ∉ t := by
    intro t hdt
    rw [hdesc] at hdt
    obtain ⟨p, hp, hpt⟩ := forall₂_left hf.flip _ (lastDesc_mem hdt)
    obtain ⟨k, v, hsh, h | h | h⟩ := hpt
    · obtain ⟨-, x, d, -, -, e⟩ := h; cases e
    · obtain ⟨-, t', e, hv⟩ := h
      cases e
      obtain ⟨s1, s2⟩ := shape_mem hsh
      obtain ⟨p1, p2⟩ := hpiece p (by simp [hp])
      have htv : ∀ c ∈ t, c ∈ v := by
        rcases hv with rfl | ⟨rfl, -⟩
        · intro c hc; simp [hc]
        · exact fun c hc => hc
      exact ⟨fun c hc => p1 c (s1 c (htv c hc)), fun hc => p2 (s1 _ (htv _ hc)), fun hc => s2 (htv _ hc)⟩
    · cases h.2.2
  refine ⟨⟨⟨fun h => hc (hn1 _ (hsub _ h)), fun h => hn2 (hsub _ h), hhead, ?_⟩, fun t htd => ?_⟩, ?_, fun t htd => ?_, ?_⟩
  · rw [hn]; exact trimEnd_last
  · obtain ⟨a, b, c⟩ := hdescr t htd
    exact ⟨fun h => hc (a _ h), b, c⟩
  · exact fun c hcm => ha c (hn1 c (hsub c hcm))
  · exact fun c hcm => ha c ((hdescr t htd).1 c hcm)
  · intro d hdd
    rw [hd] at hdd
    obtain ⟨p, hp, hpt⟩ := forall₂_left hf.flip _ (lastDur_mem hdd)
    obtain ⟨k, v, hsh, h | h | h⟩ := hpt
    · obtain ⟨-, x, d', -, hm, e⟩ := h
      cases e
      exact millis_range hm
    · obtain ⟨-, t', e, -⟩ := h; cases e
    · cases h.2.2

/-- C88 (timings): Server-Timing metrics that were read can be passed on exactly when their durations survive being
written, as all below 4096 seconds do. -/
theorem C88_timing_iff :
    RelaysIff s!!"server-timing" ServerTiming.value ServerTiming.fromHeaders
      (fun ms => ∀ m ∈ ms, ∀ d, m.dur = some d → Survives d) := by
  intro h ms hr hx
  obtain ⟨vs, v, hg, ha⟩ := get_of_read (fun hn => by
      unfold ServerTiming.fromHeaders
      rw [show h.get ServerTiming.name = none from hn]) hx hr
  have hf := ((C57_reads_partial h _ hg).1 ms).mp hx
  have hall : ∀ m ∈ ms, PlainMetric m ∧ MetricOk m := by
    intro m hm
    obtain ⟨e, he, hem⟩ := forall₂_left hf.flip m hm
    obtain ⟨h1, h2⟩ := listItems_mem he
    exact entry_plain hem h1 h2 (listItems_ascii ha e he)
  rw [C57_roundtrip_iff_partial ms fun m hm => (hall m hm).2]
  constructor
  · exact fun h m hm => (h.2 m hm).2
  · intro h
    refine ⟨?_, fun m hm => ⟨(hall m hm).1, h m hm⟩⟩
    rintro rfl
    cases hi : listItems (vs ++ [v]) with
    | nil => exact listItems_ne_nil (by simp) hi
    | cons a b => rw [hi] at hf; cases hf


example : Received (oneHeader s!!"server-timing" s!!"db; dur=53.2; desc=\"x\", cache") s!!"server-timing" ∧
    ServerTiming.fromHeaders (oneHeader s!!"server-timing" s!!"db; dur=53.2; desc=\"x\", cache") =
      .ok (some [⟨s!!"db", some ⟨0, 53200000⟩, some s!!"x"⟩, ⟨s!!"cache", none, none⟩]) := by
  refine ⟨fun vs h => ?_, by decide +kernel⟩
  cases h
  exact ⟨by simp, fun v hv => by rw [List.mem_singleton.mp hv]; decide⟩

/-! ### Cache-Control, Vary, Strict-Transport-Security, Timing-Allow-Origin -/

theorem cachePart_whole {t : Str} {d : CacheDirective} (h : CachePart t (some d)) : SecsFit d ∧ wholeSeconds d = d := by
  generalize ho : some d = o at h
  cases h with
  | flag hm _ _ =>
    cases ho
    simp only [cacheFlags, List.mem_cons, Prod.mk.injEq, List.not_mem_nil, or_false] at hm
    rcases hm with h | h | h | h | h | h | h | h | h <;> obtain ⟨-, rfl⟩ := h <;> exact ⟨trivial, rfl⟩
  | bareStale _ => cases ho; exact ⟨trivial, rfl⟩
  | timed hm _ _ hk _ =>
    cases ho
    simp only [cacheTimed, List.mem_cons, Prod.mk.injEq, List.not_mem_nil, or_false] at hm
    rcases hm with h | h | h | h | h | h <;> obtain ⟨-, rfl⟩ := h <;> exact ⟨hk, rfl⟩
  | unknown => cases ho

/-- C88 (cache directives): everything but the shared maximum age can be passed on. -/
theorem C88_cache_iff_partial :
    RelaysIff s!!"cache-control" CacheControl.value CacheControl.fromHeaders (fun ds => ∀ d ∈ ds, ∀ x, d ≠ .sMaxAge x) := by
  intro h ds hr hx
  obtain ⟨vs, v, hg, ha⟩ := get_of_read (fun hn => by
      unfold CacheControl.fromHeaders
      rw [show h.get CacheControl.name = none from hn]) hx hr
  obtain ⟨os, hf, rfl⟩ := ((C31_reads h _ hg ha).1 ds).mp hx
  have hall : ∀ d ∈ os.filterMap id, SecsFit d ∧ wholeSeconds d = d := by
    intro d hd
    rw [List.mem_filterMap] at hd
    obtain ⟨o, ho, e⟩ := hd
    simp only [id] at e
    subst e
    obtain ⟨t, -, ht⟩ := forall₂_left hf.flip _ ho
    exact cachePart_whole ht
  rw [C31_roundtrip_iff_partial _ fun d hd => (hall d hd).1]
  exact ⟨fun h d hd => (h d hd).1, fun h d hd => ⟨h d hd, (hall d hd).2⟩⟩

example : CacheControl.fromHeaders (oneHeader s!!"cache-control" s!!"Max-Age=07, x, no-store") =
    .ok (some [.maxAge ⟨7, 0⟩, .noStore]) := by decide +kernel

/-- C88 is violated for the shared maximum age: it is read, but written under a name that is not read. -/
theorem C88_violated_s_maxage :
    CacheControl.fromHeaders (oneHeader s!!"cache-control" s!!"s-maxage=60") = .ok (some [.sMaxAge ⟨60, 0⟩]) ∧
    CacheControl.value [.sMaxAge ⟨60, 0⟩] = .ok s!!"s-max-age=60" ∧
    CacheControl.fromHeaders (oneHeader s!!"cache-control" s!!"s-max-age=60") = .ok (some []) := by
  decide +kernel

/-- C88 (Vary): everything but the wildcard beside a single empty name can be passed on. -/
theorem C88_vary_iff_partial :
    RelaysIff s!!"vary" Vary.value Vary.fromHeaders (fun l => ¬ (l.entries = [[]] ∧ l.wildcard = true)) := by
  intro h l hr hx
  obtain ⟨vs, v, hg, ha⟩ := get_of_read (fun hn => readStarList_none hn) hx hr
  rw [C35_reads h _ hg ha] at hx
  obtain rfl := Option.some.inj (Res.ok.inj hx)
  rw [C35_roundtrip_iff_partial]
  have hne := listItems_ne_nil (vs := vs ++ [v]) (by simp)
  have hmem : ∀ t ∈ listItems (vs ++ [v]), Ascii t ∧ ',' ∉ t ∧ Trimmed t :=
    fun t ht => ⟨listItems_ascii ha t ht, listItems_mem ht⟩
  generalize listItems (vs ++ [v]) = items at *
  constructor
  · exact fun h => h.2.1
  · intro hn
    refine ⟨?_, hn, ?_⟩
    · by_cases hs : s!!"*" ∈ items
      · exact .inr (decide_eq_true hs)
      · left
        intro e
        cases items with
        | nil => exact hne rfl
        | cons a b =>
          rw [List.map_eq_nil_iff, List.filter_eq_nil_iff] at e
          have := e a (by simp)
          simp only [ne_eq, decide_not, Bool.not_eq_true', decide_eq_false_iff_not, not_not] at this
          exact hs (by simp [this])
    · intro n hnm
      simp only [List.mem_map, List.mem_filter] at hnm
      obtain ⟨t, ⟨ht, hstar⟩, rfl⟩ := hnm
      obtain ⟨h1, h2, h3⟩ := hmem t ht
      have hst : t ≠ s!!"*" := by simpa using hstar
      refine ⟨?_, lower_lower t, ?_, trimmed_lower.mpr h3, fun e => ?_⟩
      · intro c hc
        obtain ⟨d, hd, rfl⟩ := List.mem_map.mp hc
        have := h1 d hd
        rw [lowerC_toNat]
        split <;> omega
      · rwa [mem_lower (by decide) (by decide)]
      · have hm : '*' ∈ t := (mem_lower (by decide) (by decide)).mp (by rw [e]; simp)
        have hl : t.length = 1 := by
          have := congrArg List.length e
          simpa [lower] using this
        match t, hl with
        | [c], _ => exact hst (by rw [← List.mem_singleton.mp hm])

example : Vary.fromHeaders (oneHeader s!!"vary" s!!" A ,*, b") = .ok (some ⟨[s!!"a", s!!"b"], true⟩) := by decide +kernel

/-- C88 is violated for Vary: an empty name before the wildcard is dropped. -/
theorem C88_violated_vary :
    Vary.fromHeaders (oneHeader s!!"vary" s!!", *") = .ok (some ⟨[[]], true⟩) ∧
    Vary.value ⟨[[]], true⟩ = .ok s!!"*" ∧ Vary.fromHeaders (oneHeader s!!"vary" s!!"*") = .ok (some ⟨[], true⟩) := by
  decide +kernel

/-- C88 (HSTS): everything but the subdomain flag can be passed on. -/
theorem C88_hsts_iff_partial :
    RelaysIff Hsts.NAME (fun p => .ok p.headerValue) Hsts.fromHeaders (fun p => p.includeSubdomains = false) := by
  intro h p hr hx
  obtain ⟨vs, v, hg, ha⟩ := get_of_read (C51_reads h).1 hx hr
  obtain ⟨h1, ⟨t, ht, hnum⟩, hn, -, -⟩ := (((C51_reads h).2 vs v hg).1 p).mp hx
  obtain ⟨n, hn1, hn2⟩ := h1 t (List.mem_of_getLast? ht)
  have hs : p.maxAge.secs < 2 ^ 64 := by rw [numeral_unique hnum hn1]; exact hn2
  constructor
  · intro hrt
    exact Bool.eq_false_iff.mpr fun hi => C51_violated_include_subdomains p hi hs hrt
  · exact C51_round_trip_partial p hs hn

example : Hsts.fromHeaders (oneHeader Hsts.NAME s!!"max-age=07; preload; x") = .ok (some ⟨⟨7, 0⟩, false, true⟩) ∧
    Hsts.fromHeaders (oneHeader Hsts.NAME s!!"max-age=7;includesubdomains") = .ok (some ⟨⟨7, 0⟩, true, false⟩) := by decide +kernel

/-- C88 is violated for the subdomain flag: a proxy that reads and rewrites the policy drops it. -/
theorem C88_violated_subdomains :
    Hsts.fromHeaders (oneHeader Hsts.NAME s!!"max-age=1; includesubdomains") = .ok (some ⟨⟨1, 0⟩, true, false⟩) ∧
    (⟨⟨1, 0⟩, true, false⟩ : Hsts).headerValue = s!!"max-age=1;includeSubdomains" ∧
    Hsts.fromHeaders (oneHeader Hsts.NAME s!!"max-age=1;includeSubdomains") = .ok (some ⟨⟨1, 0⟩, false, false⟩) := by
  decide +kernel

/-- C88 (Timing-Allow-Origin): with a URL library that prints what it parsed without adding commas, the lists with an
origin or the wildcard can be passed on. The others come from lists of nothing but `"null"`. -/
theorem C88_origins_iff_partial {Url : Type} (parse : Str → Option Url) (display : Url → Str)
    (hurl : ∀ u, parse (display u) = some u ∧ Ascii (display u) ∧ ∃ c ∈ (display u).head?, c.isAlpha = true)
    (hcomma : ∀ s u, parse s = some u → ',' ∉ s → ',' ∉ display u) :
    RelaysIff s!!"timing-allow-origin" (TimingAllowOrigin.value display) (TimingAllowOrigin.fromHeaders parse)
      (fun l => l.entries ≠ [] ∨ l.wildcard = true) := by
  intro h l hr hx
  obtain ⟨vs, v, hg, ha⟩ := get_of_read (fun hn => by
      unfold TimingAllowOrigin.fromHeaders
      rw [show h.get TimingAllowOrigin.name = none from hn]) hx hr
  obtain ⟨-, hf⟩ := ((C52_reads parse h _ hg).1 l).mp hx
  constructor
  · intro hrt
    by_contra hcon
    rw [not_or, not_not] at hcon
    obtain ⟨es, w⟩ := l
    obtain ⟨rfl, hw⟩ := hcon
    have hw' : w = false := by simpa using hw
    subst hw'
    obtain ⟨h', u, he, -, hn, hb⟩ := hrt []
    have hget := hn s!!"timing-allow-origin"
    rw [if_pos rfl] at hget
    rw [show applyHeader [] s!!"timing-allow-origin" (TimingAllowOrigin.value display ⟨[], false⟩) =
      .ok (oneHeader s!!"timing-allow-origin" []) from rfl] at he
    obtain rfl := Res.ok.inj he
    have := (((C52_reads parse _ [[]] rfl).1 _).mp hb).2
    have e : (([[]] : List Str).flatMap fun v => (split ',' v).map trimStart).filter
        (fun t => t ≠ s!!"*" ∧ t ≠ s!!"\"null\"") = [[]] := by decide
    rw [e] at this
    cases this
  · intro hne
    refine C52_roundtrip_partial parse display hurl l hne fun u hu => ?_
    obtain ⟨t, ht, htu⟩ := forall₂_left hf.flip u hu
    refine hcomma t u htu fun hc => ?_
    have hm := (List.mem_filter.mp ht).1
    rw [List.mem_flatMap] at hm
    obtain ⟨s, -, hm⟩ := hm
    rw [List.mem_map] at hm
    obtain ⟨q, hq, rfl⟩ := hm
    obtain ⟨w, hw, -⟩ := trimStart_suffix q
    exact not_mem_of_mem_split hq (by rw [hw]; exact List.mem_append_right _ hc)

example : let display : Unit → Str := fun _ => s!!"https://a.b/"
    let parse : Str → Option Unit := fun s => if s = s!!"https://a.b/" then some () else none
    (∀ u, parse (display u) = some u ∧ Ascii (display u) ∧ ∃ c ∈ (display u).head?, c.isAlpha = true) ∧
      ∀ s u, parse s = some u → ',' ∉ s → ',' ∉ display u :=
  ⟨fun _ => ⟨rfl, isAscii_iff.mp (show isAscii s!!"https://a.b/" = true by decide), 'h', rfl, by decide⟩,
    fun _ _ _ _ => show ',' ∉ s!!"https://a.b/" by decide⟩

/-- C88 is violated for Timing-Allow-Origin: the list of nothing but `"null"` is read as the empty list, which is
written as a text that is not read. -/
theorem C88_violated_null {Url : Type} (parse : Str → Option Url) (display : Url → Str) (h0 : parse [] = none) :
    TimingAllowOrigin.fromHeaders parse (oneHeader s!!"timing-allow-origin" s!!"\"null\"") = .ok (some ⟨[], false⟩) ∧
    TimingAllowOrigin.value display ⟨[], false⟩ = .ok [] ∧
    TimingAllowOrigin.fromHeaders parse (oneHeader s!!"timing-allow-origin" []) = .err 400 := by
  refine ⟨?_, rfl, ?_⟩
  · rw [(C52_reads parse (oneHeader s!!"timing-allow-origin" s!!"\"null\"") _ rfl).1]
    rw [show (([s!!"\"null\""] : List Str).flatMap fun v => (split ',' v).map trimStart) = [s!!"\"null\""] by decide]
    exact ⟨rfl, .nil⟩
  · rcases (C52_reads parse (oneHeader s!!"timing-allow-origin" []) [[]] rfl).2 with ⟨l, hl⟩ | h
    · have := (((C52_reads parse (oneHeader s!!"timing-allow-origin" []) [[]] rfl).1 l).mp hl).2
      have e : (([[]] : List Str).flatMap fun v => (split ',' v).map trimStart).filter
          (fun t => t ≠ s!!"*" ∧ t ≠ s!!"\"null\"") = [[]] := by decide
      rw [e] at this
      generalize l.entries = es at this
      cases this with
      | cons h _ => rw [h0] at h; cases h
    · exact h

theorem forwarded_one (v6 : Str → Option Str) (v : Str) :
    Forwarded.fromHeaders v6 (oneHeader s!!"forwarded" v) = (Forwarded.parse v).map some := by
  unfold Forwarded.fromHeaders Forwarded.fromForwardedHeader Forwarded.NAME
  rw [show (oneHeader s!!"forwarded" v).get s!!"forwarded" = some [v] from rfl]
  simp only [HeaderValues.first, List.head?_cons, Res.unwrap_some, Res.bind_ok]
  cases Forwarded.parse v <;> rfl

/-- C88 is violated for Forwarded: a quoted host with a port, and a host on its own, are read, but what is written for
them is not. -/
theorem C88_violated_forwarded (v6 : Str → Option Str) :
    (∃ f : Forwarded, Forwarded.fromHeaders v6 (oneHeader s!!"forwarded" s!!"for=a;host=\"example.com:8080\"") = .ok (some f) ∧
      f.headerValue = s!!"for=a;host=example.com:8080" ∧
      Forwarded.fromHeaders v6 (oneHeader s!!"forwarded" f.headerValue) = .err 500) ∧
    (∃ f : Forwarded, Forwarded.fromHeaders v6 (oneHeader s!!"forwarded" s!!"host=h") = .ok (some f) ∧
      f.headerValue = s!!";host=h" ∧ Forwarded.fromHeaders v6 (oneHeader s!!"forwarded" f.headerValue) = .err 500) := by
  simp only [forwarded_one]
  exact ⟨⟨⟨none, [s!!"a"], some s!!"example.com:8080", none⟩, by decide +kernel, by decide +kernel, by decide +kernel⟩,
    ⟨⟨none, [], some s!!"h", none⟩, by decide +kernel, by decide +kernel, by decide +kernel⟩⟩

end HT
