import Verif.Props.Lists

/-! C44 and C52: Allow and Timing-Allow-Origin. -/

namespace HT
open Spec

/-! ### C44: Allow -/

theorem allow_loop_eq (parts : List Str) (acc : List Method) :
    Allow.loop parts acc =
      (Res.mapM Method.fromStr (parts.map trim)).map fun ms => ms.foldl (fun s m => Allow.insert m s) acc := by
  induction parts generalizing acc with
  | nil => rfl
  | cons p ps ih =>
    rw [List.map_cons, Res.mapM_cons]
    unfold Allow.loop
    cases Method.fromStr (trim p) with
    | ok m =>
      simp only [Res.bind_ok, ih]
      cases Res.mapM Method.fromStr (ps.map trim) <;> rfl
    | err e => rfl
    | panic => rfl

theorem allow_foldl_nodup (ms acc : List Method) (h : acc.Nodup) :
    (ms.foldl (fun s m => Allow.insert m s) acc).Nodup ∧
    ∀ m, m ∈ ms.foldl (fun s m => Allow.insert m s) acc ↔ m ∈ acc ∨ m ∈ ms := by
  induction ms generalizing acc with
  | nil => exact ⟨h, by simp⟩
  | cons m ms ih =>
    rw [List.foldl_cons]
    have h1 : (Allow.insert m acc).Nodup := by
      unfold Allow.insert
      split
      · exact h
      · rename_i hm
        rw [List.nodup_append]
        refine ⟨h, by simp, ?_⟩
        intro a ha b hb
        simp at hb
        subst hb
        rintro rfl
        exact hm ha
    have h2 : ∀ x, x ∈ Allow.insert m acc ↔ x ∈ acc ∨ x = m := by
      intro x
      unfold Allow.insert
      split
      · constructor
        · exact .inl
        · rintro (h | rfl) <;> assumption
      · simp
    obtain ⟨a, b⟩ := ih _ h1
    refine ⟨a, fun x => ?_⟩
    rw [b, h2]
    simp [or_assoc]

theorem allow_foldl_id (ms acc : List Method) (h : (acc ++ ms).Nodup) :
    ms.foldl (fun s m => Allow.insert m s) acc = acc ++ ms := by
  induction ms generalizing acc with
  | nil => simp
  | cons m ms ih =>
    rw [List.foldl_cons]
    have : m ∉ acc := by
      intro hm
      rw [List.nodup_append] at h
      exact h.2.2 m hm m (by simp) rfl
    rw [show Allow.insert m acc = acc ++ [m] from if_neg this, ih]
    · simp
    · simpa using h

/-- Reading gives the set of the methods named (up to case) by the members; a member that names no method
makes it fail with status 500. -/
theorem C44_reads (h : Headers) (vs : List Str) (hv : h.get s!!"allow" = some vs) :
    ((∀ t ∈ listItems vs, ∃ m : Method, sameName t m.asStr = true) →
      ∃ ms, Allow.fromHeaders h = .ok (some ms) ∧ ms.Nodup ∧
        ∀ m, m ∈ ms ↔ ∃ t ∈ listItems vs, sameName t m.asStr = true) ∧
    ((∃ t ∈ listItems vs, ∀ m : Method, sameName t m.asStr = false) → Allow.fromHeaders h = .err 500) := by
  have hr : Allow.fromHeaders h = ((Res.mapM Method.fromStr (listItems vs)).map fun ms =>
      ms.foldl (fun s m => Allow.insert m s) []).map some := by
    unfold Allow.fromHeaders
    rw [show h.get Allow.name = some vs from hv]
    simp only
    rw [allow_loop_eq, trimmedParts_map]
  have hclean : ∀ t, (Method.fromStr t).Clean 500 := by
    intro t
    by_cases ht : ∃ m : Method, sameName t m.asStr = true
    · obtain ⟨m, hm⟩ := ht
      exact .inl ⟨m, ((C17_parse_iff t m).1).mpr hm⟩
    · right
      refine (C17_parse_iff t .get).2 fun m => ?_
      cases hs : sameName t (Method.asStr m) with
      | false => rfl
      | true => exact absurd ⟨m, hs⟩ ht
  rw [hr]
  generalize listItems vs = items
  constructor
  · intro hall
    rcases Res.mapM_clean (l := items) (fun t _ => hclean t) with ⟨ms, hms⟩ | hms
    · rw [hms]
      obtain ⟨h1, h2⟩ := allow_foldl_nodup ms [] List.nodup_nil
      refine ⟨_, rfl, h1, fun m => ?_⟩
      rw [h2]
      rw [Res.mapM_eq_ok_iff] at hms
      simp only [List.not_mem_nil, false_or]
      clear h1 h2 hall hr
      induction hms with
      | nil => simp
      | cons hab _ ih =>
        rename_i t m' _ _ _
        rw [List.mem_cons, ih]
        simp only [List.mem_cons, exists_eq_or_imp]
        refine or_congr ?_ Iff.rfl
        rw [← (C17_parse_iff t m).1, hab]
        simp [eq_comm]
    · exfalso
      obtain ⟨ms, hms'⟩ : ∃ ms, Res.mapM Method.fromStr items = .ok ms := by
        clear hms hr
        induction items with
        | nil => exact ⟨[], rfl⟩
        | cons t ts ih =>
          obtain ⟨m, hm⟩ := hall t (by simp)
          obtain ⟨ms, hms⟩ := ih (fun t ht => hall t (by simp [ht]))
          exact ⟨m :: ms, by rw [Res.mapM_cons, ((C17_parse_iff t m).1).mpr hm, hms]; rfl⟩
      rw [hms'] at hms
      cases hms
  · rintro ⟨t, ht, hno⟩
    rcases Res.mapM_clean (l := items) (fun t _ => hclean t) with ⟨ms, hms⟩ | hms
    · exfalso
      rw [Res.mapM_eq_ok_iff] at hms
      clear hr
      induction hms with
      | nil => cases ht
      | cons hab _ ih =>
        rename_i t' m' _ _ _
        rcases List.mem_cons.mp ht with rfl | ht
        · rw [(C17_parse_iff t m').1, hno] at hab
          cases hab
        · exact ih ht
    · rw [hms]; rfl

example : ∀ t ∈ listItems [s!!"get , Put", s!!"GET"], ∃ m ∈ [Method.get, .put], sameName t m.asStr = true := by
  decide +kernel

/-- A set of methods that is not empty is read back, in the order in which it was visited. -/
theorem allow_trip (order : List Method) (ho : order.Nodup ∧ order ≠ []) :
    RoundTrips s!!"allow" (Allow.value order) Allow.fromHeaders order := by
  obtain ⟨hn, hne⟩ := ho
  have htok : ∀ m ∈ Method.all, isAscii m.asStr = true ∧ ',' ∉ m.asStr ∧ Trimmed m.asStr := by decide +kernel
  refine roundTrips_of (join s!!", " (order.map Method.asStr)) ?_ ?_ ?_
  · unfold Allow.value; rw [writeLoop_eq]
  · apply isAscii_join (by decide)
    intro t ht
    rw [List.mem_map] at ht
    obtain ⟨m, -, rfl⟩ := ht
    exact (htok m m.mem_all).1
  · intro h hg
    unfold Allow.fromHeaders
    rw [show h.get Allow.name = _ from hg]
    simp only
    rw [allow_loop_eq, trimmedParts_map, listItems_join (by simpa using hne)]
    · rw [show Res.mapM Method.fromStr (order.map Method.asStr) = .ok order from ?_]
      · simp only [Res.map_ok]
        rw [allow_foldl_id _ _ (by simpa using hn)]
        simp
      · rw [Res.mapM_eq_ok_iff, List.forall₂_map_left_iff]
        exact List.forall₂_same.mpr fun m _ => (C17_round_trip m m).1
    · intro t ht
      rw [List.mem_map] at ht
      obtain ⟨m, -, rfl⟩ := ht
      exact (htok m m.mem_all).2.1
    · intro t ht
      rw [List.mem_map] at ht
      obtain ⟨m, -, rfl⟩ := ht
      exact (htok m m.mem_all).2.2

/-- A set of methods, visited in whatever order, round-trips exactly when it is not empty. -/
theorem C44_roundtrip_iff_partial (order : List Method) (hn : order.Nodup) :
    (∃ ms : List Method, (∀ m, m ∈ ms ↔ m ∈ order) ∧ RoundTrips s!!"allow" (Allow.value order) Allow.fromHeaders ms) ↔
      order ≠ [] := by
  constructor
  · rintro ⟨ms, hm, h⟩ rfl
    obtain ⟨h', v, h1, h2, h3, h4⟩ := h []
    have hh : h' = FMap.set [] s!!"allow" [[]] := by cases h1; rfl
    rw [hh] at h4
    have : Allow.fromHeaders (FMap.set [] s!!"allow" [[]]) = .err 500 := by decide +kernel
    rw [this] at h4
    cases h4
  · intro hne
    exact ⟨order, fun _ => Iff.rfl, allow_trip order ⟨hn, hne⟩⟩

example : [Method.put, .get, .delete].Nodup ∧ [Method.put, .get, .delete] ≠ [] := by decide

/-- The empty set is not read back, and an unknown method fails with 500 rather than 400. -/
theorem C44_violated :
    (Allow.value [] = .ok [] ∧ Allow.fromHeaders (oneHeader s!!"allow" []) = .err 500) ∧
    Allow.fromHeaders (oneHeader s!!"allow" s!!"GET, FOO") = .err 500 := by
  decide +kernel

/-! ### C52: Timing-Allow-Origin -/

theorem timing_loop_eq {Url : Type} (parse : Str → Option Url) (parts : List Str) (acc : StarList Url) :
    TimingAllowOrigin.loop parse parts acc =
      (Res.mapM (fun t => (Res.ofOption 500 (parse t)).status 400)
        ((parts.map trimStart).filter fun t => t ≠ s!!"*" ∧ t ≠ s!!"\"null\"")).map fun us =>
      ⟨acc.entries ++ us, acc.wildcard || decide (s!!"*" ∈ parts.map trimStart)⟩ := by
  induction parts generalizing acc with
  | nil => simp [TimingAllowOrigin.loop]
  | cons p ps ih =>
    unfold TimingAllowOrigin.loop
    simp only [List.map_cons]
    by_cases h1 : trimStart p = s!!"*"
    · rw [if_pos h1, ih, List.filter_cons_of_neg (by simp [h1])]
      congr 1
      funext us
      simp [h1]
    · rw [if_neg h1]
      have hm : decide (s!!"*" ∈ trimStart p :: ps.map trimStart) = decide (s!!"*" ∈ ps.map trimStart) := by
        simp [Ne.symm h1]
      rw [hm]
      by_cases h2 : trimStart p = s!!"\"null\""
      · rw [if_pos h2, ih, List.filter_cons_of_neg (by simp [h2])]
      · rw [if_neg h2, List.filter_cons_of_pos (by simp [h1, h2]), Res.mapM_cons]
        cases (Res.ofOption 500 (parse (trimStart p))).status 400 with
        | ok u =>
          simp only [Res.bind_ok, ih]
          cases Res.mapM (fun t => (Res.ofOption 500 (parse t)).status 400)
            ((ps.map trimStart).filter fun t => t ≠ s!!"*" ∧ t ≠ s!!"\"null\"") <;> simp
        | err e => rfl
        | panic => rfl

/-- What reading gives, for any URL parser: members are cut at commas with leading whitespace removed,
`*` sets the flag, `"null"` is skipped, every other member is parsed as a URL; a failure there gives
status 400. -/
theorem C52_reads {Url : Type} (parse : Str → Option Url) (h : Headers) (vs : List Str)
    (hv : h.get s!!"timing-allow-origin" = some vs) :
    let items := (vs.flatMap fun v => (split ',' v).map trimStart)
    (∀ l, TimingAllowOrigin.fromHeaders parse h = .ok (some l) ↔
      l.wildcard = decide (s!!"*" ∈ items) ∧
      List.Forall₂ (fun t u => parse t = some u) (items.filter fun t => t ≠ s!!"*" ∧ t ≠ s!!"\"null\"") l.entries) ∧
    ((∃ l, TimingAllowOrigin.fromHeaders parse h = .ok (some l)) ∨
      TimingAllowOrigin.fromHeaders parse h = .err 400) := by
  intro items
  have hr : TimingAllowOrigin.fromHeaders parse h = ((Res.mapM (fun t => (Res.ofOption 500 (parse t)).status 400)
        (items.filter fun t => t ≠ s!!"*" ∧ t ≠ s!!"\"null\"")).map fun us =>
      (⟨us, decide (s!!"*" ∈ items)⟩ : StarList Url)).map some := by
    unfold TimingAllowOrigin.fromHeaders
    rw [show h.get TimingAllowOrigin.name = some vs from hv]
    simp only
    rw [timing_loop_eq, iter_eq, List.map_flatMap]
    simp only [List.nil_append, Bool.false_or]
    rfl
  rw [hr]
  clear_value items
  have hcl : ∀ t, ((Res.ofOption 500 (parse t)).status 400).Clean 400 := by
    intro t; cases parse t with
    | none => exact .inr rfl
    | some u => exact .inl ⟨u, rfl⟩
  have hok : ∀ t u, (Res.ofOption 500 (parse t)).status 400 = .ok u ↔ parse t = some u := by
    intro t u; cases parse t with
    | none => simp [Res.ofOption, Res.status]
    | some u' => simp [Res.ofOption, Res.status]
  constructor
  · rintro ⟨es, w⟩
    rw [show ∀ r : Res (List Url), (r.map fun us => (⟨us, decide (s!!"*" ∈ items)⟩ : StarList Url)).map some =
      r.map (fun us => some (⟨us, decide (s!!"*" ∈ items)⟩ : StarList Url)) from fun r => by cases r <;> rfl, map_some_ok]
    constructor
    · rintro ⟨us, h1, h2⟩
      simp only [StarList.mk.injEq] at h2
      refine ⟨h2.2.symm, ?_⟩
      rw [Res.mapM_eq_ok_iff] at h1
      rw [← h2.1]
      exact h1.imp fun t u h => (hok t u).mp h
    · rintro ⟨h1, h2⟩
      simp only at h1 h2
      refine ⟨es, ?_, by simp [h1]⟩
      rw [Res.mapM_eq_ok_iff]
      exact h2.imp fun t u h => (hok t u).mpr h
  · rcases Res.mapM_clean (l := items.filter fun t => t ≠ s!!"*" ∧ t ≠ s!!"\"null\"") (fun t _ => hcl t) with ⟨es, h⟩ | h
    · left; rw [h]; exact ⟨_, rfl⟩
    · right; rw [h]; rfl

example : (TimingAllowOrigin.fromHeaders (fun s => if s = s!!"a:" then some () else none)
    (oneHeader s!!"timing-allow-origin" s!!"a:, \"null\", *")) = .ok (some ⟨[()], true⟩) := by decide +kernel

/-- For any URL printer whose output parses back, is ASCII and begins with a letter: every list with an
origin or the wildcard whose URLs have no comma round-trips. -/
theorem C52_roundtrip_partial {Url : Type} (parse : Str → Option Url) (display : Url → Str)
    (hurl : ∀ u, parse (display u) = some u ∧ Ascii (display u) ∧ ∃ c ∈ (display u).head?, c.isAlpha = true)
    (l : StarList Url) (hne : l.entries ≠ [] ∨ l.wildcard = true) (hc : ∀ u ∈ l.entries, ',' ∉ display u) :
    RoundTrips s!!"timing-allow-origin" (TimingAllowOrigin.value display l)
      (TimingAllowOrigin.fromHeaders parse) l := by
  have hhead : ∀ u, ∃ c r, display u = c :: r ∧ isWs c = false ∧ c ≠ '*' ∧ c ≠ '"' := by
    intro u
    obtain ⟨c, h1, h2⟩ := (hurl u).2.2
    cases hd : display u with
    | nil => rw [hd] at h1; cases h1
    | cons d r =>
      rw [hd] at h1
      cases h1
      refine ⟨c, r, rfl, ?_, ?_, ?_⟩
      · have : 65 ≤ c.toNat ∧ c.toNat ≤ 122 := by
          simp only [Char.isAlpha, Char.isUpper, Char.isLower, Bool.or_eq_true, Bool.and_eq_true,
            decide_eq_true_eq, ge_iff_le, UInt32.le_iff_toNat_le] at h2
          have e : c.toNat = c.val.toNat := rfl
          rcases h2 with ⟨a, b⟩ | ⟨a, b⟩
          · exact ⟨by rw [e]; exact a, by rw [e]; exact Nat.le_trans b (by decide)⟩
          · exact ⟨by rw [e]; exact Nat.le_trans (by decide) a, by rw [e]; exact b⟩
        unfold isWs
        simp only [Bool.or_eq_false_iff, Bool.and_eq_false_iff, decide_eq_false_iff_not, beq_eq_false_iff_ne]
        omega
      · rintro rfl; revert h2; decide
      · rintro rfl; revert h2; decide
  have hne1 : ¬ (l.entries.map display = [[]] ∧ l.wildcard = true) := by
    rintro ⟨h, -⟩
    cases hl : l.entries with
    | nil => rw [hl] at h; cases h
    | cons e es =>
      rw [hl] at h
      simp only [List.map_cons, List.cons.injEq] at h
      obtain ⟨c, r, hd, -⟩ := hhead e
      rw [hd] at h
      cases h.1
  refine roundTrips_of (join s!!", " (written s!!"*" (l.entries.map display) l.wildcard)) ?_ ?_ ?_
  · unfold TimingAllowOrigin.value
    rw [writeStar_eq hne1]
  · apply isAscii_join (by decide)
    intro t ht
    unfold written at ht
    rcases List.mem_append.mp ht with ht | ht
    · rw [List.mem_map] at ht
      obtain ⟨e, he, rfl⟩ := ht
      exact isAscii_iff.mpr (hurl e).2.1
    · split at ht
      · simp at ht; subst ht; decide
      · simp at ht
  · intro h hg
    have htr : ∀ t ∈ written s!!"*" (l.entries.map display) l.wildcard,
        ',' ∉ t ∧ (∃ c r, t = c :: r ∧ isWs c = false) := by
      intro t ht
      unfold written at ht
      rcases List.mem_append.mp ht with ht | ht
      · rw [List.mem_map] at ht
        obtain ⟨e, he, rfl⟩ := ht
        obtain ⟨c, r, h1, h2, -⟩ := hhead e
        exact ⟨hc e he, c, r, h1, h2⟩
      · split at ht
        · simp at ht; subst ht; exact ⟨by decide, '*', [], rfl, by decide⟩
        · simp at ht
    have hitems : (split ',' (join s!!", " (written s!!"*" (l.entries.map display) l.wildcard))).map trimStart
        = written s!!"*" (l.entries.map display) l.wildcard := by
      have hw : written s!!"*" (l.entries.map display) l.wildcard ≠ [] := by
        unfold written
        rcases hne with h | h <;> simp [h]
      generalize written s!!"*" (l.entries.map display) l.wildcard = ts at htr hw
      clear hg
      cases ts with
      | nil => exact absurd rfl hw
      | cons x xs =>
        have hstart : ∀ t ∈ x :: xs, trimStart t = t := by
          intro t ht
          obtain ⟨-, c, r, rfl, hws⟩ := htr t ht
          unfold trimStart
          rw [List.dropWhile_cons_of_neg (by simp [hws])]
        rw [split_join (by decide) (fun t ht => (htr t ht).1), List.map_cons, List.map_map, hstart x (by simp)]
        congr 1
        rw [List.map_congr_left (g := id)]
        · simp
        · intro t htm
          have h2 : trimStart (' ' :: t) = trimStart t := by
            unfold trimStart
            rw [List.dropWhile_cons_of_pos (by decide)]
          exact h2.trans (hstart t (by simp [htm]))
    refine ((C52_reads parse h _ hg).1 l).mpr ?_
    simp only [List.flatMap_cons, List.flatMap_nil, List.append_nil]
    rw [hitems]
    have hes : (s!!"*" ∈ l.entries.map display) ↔ False := by
      simp only [List.mem_map, iff_false, not_exists, not_and]
      intro u _ e
      obtain ⟨c, r, h1, -, h2, -⟩ := hhead u
      rw [h1] at e
      cases e
      exact h2 rfl
    have hf : (l.entries.map display).filter (fun t => t ≠ s!!"*" ∧ t ≠ s!!"\"null\"") = l.entries.map display := by
      rw [List.filter_eq_self]
      intro t ht
      rw [List.mem_map] at ht
      obtain ⟨u, hu, rfl⟩ := ht
      obtain ⟨c, r, h1, -, h2, h3⟩ := hhead u
      rw [h1]
      simp only [decide_eq_true_eq]
      constructor
      · intro e; cases e; exact h2 rfl
      · intro e; cases e; exact h3 rfl
    constructor
    · unfold written
      rw [Bool.eq_iff_iff, decide_eq_true_eq, List.mem_append, hes]
      cases l.wildcard <;> simp
    · unfold written
      rw [List.filter_append, hf]
      have : (if l.wildcard then [s!!"*"] else []).filter (fun t => t ≠ s!!"*" ∧ t ≠ s!!"\"null\"") = [] := by
        cases l.wildcard <;> decide
      rw [this, List.append_nil, List.forall₂_map_left_iff]
      exact List.forall₂_same.mpr fun u _ => (hurl u).1

/-- A printer and parser for two URLs, meeting the hypotheses. -/
example : ∀ b : Bool, (fun s => if s = s!!"https://a.com/" then some true else if s = s!!"http://b.org/x" then some false else none)
      (bif b then s!!"https://a.com/" else s!!"http://b.org/x") = some b ∧
    Ascii (bif b then s!!"https://a.com/" else s!!"http://b.org/x") ∧
    ∃ c ∈ (bif b then s!!"https://a.com/" else s!!"http://b.org/x").head?, c.isAlpha = true := by
  intro b
  cases b <;> exact ⟨by decide +kernel, by decide, 'h', rfl, by decide⟩

/-- With a URL library that prints what it parsed without adding commas, exactly the lists with an origin or the wildcard
whose URLs have no comma round-trip. -/
theorem C52_roundtrip_iff_partial {Url : Type} (parse : Str → Option Url) (display : Url → Str)
    (hurl : ∀ u, parse (display u) = some u ∧ Ascii (display u) ∧ ∃ c ∈ (display u).head?, c.isAlpha = true)
    (hcomma : ∀ s u, parse s = some u → ',' ∉ s → ',' ∉ display u) (l : StarList Url) :
    RoundTrips s!!"timing-allow-origin" (TimingAllowOrigin.value display l) (TimingAllowOrigin.fromHeaders parse) l ↔
      (l.entries ≠ [] ∨ l.wildcard = true) ∧ ∀ u ∈ l.entries, ',' ∉ display u := by
  constructor
  · intro hrt
    obtain ⟨h', v, he, -, hn, hb⟩ := hrt []
    have hg := hn s!!"timing-allow-origin"
    rw [if_pos rfl] at hg
    have hf := (((C52_reads parse h' _ hg).1 l).mp hb).2
    constructor
    · by_contra hcon
      rw [not_or, not_not, Bool.not_eq_true] at hcon
      obtain ⟨es, w⟩ := l
      obtain ⟨rfl, rfl⟩ := hcon
      rw [show applyHeader [] s!!"timing-allow-origin" (TimingAllowOrigin.value display ⟨[], false⟩) =
        .ok (oneHeader s!!"timing-allow-origin" []) from rfl] at he
      obtain rfl := Res.ok.inj he
      obtain rfl : [] = v := by
        have : some [[]] = some [v] := hg
        simpa using this
      have e : (([[]] : List Str).flatMap fun v => (split ',' v).map trimStart).filter
          (fun t => t ≠ s!!"*" ∧ t ≠ s!!"\"null\"") = [[]] := by decide
      rw [e] at hf
      cases hf
    · intro u hu
      obtain ⟨t, ht, htu⟩ := forall₂_left hf.flip u hu
      refine hcomma t u htu fun hc => ?_
      have hm := (List.mem_filter.mp ht).1
      rw [List.mem_flatMap] at hm
      obtain ⟨s, -, hm⟩ := hm
      rw [List.mem_map] at hm
      obtain ⟨q, hq, rfl⟩ := hm
      obtain ⟨w, hw, -⟩ := trimStart_suffix q
      exact not_mem_of_mem_split hq (by rw [hw]; exact List.mem_append_right _ hc)
  · rintro ⟨hne, hc⟩
    exact C52_roundtrip_partial parse display hurl l hne hc

example : let display : Bool → Str := fun b => bif b then s!!"https://a.com/" else s!!"http://b.org/x,y"
    let parse : Str → Option Bool := fun s => if s = s!!"https://a.com/" then some true else if s = s!!"http://b.org/x,y" then some false else none
    (∀ u, parse (display u) = some u ∧ Ascii (display u) ∧ ∃ c ∈ (display u).head?, c.isAlpha = true) ∧
      (∀ s u, parse s = some u → ',' ∉ s → ',' ∉ display u) ∧ ',' ∈ display false ∧ ',' ∉ display true := by
  refine ⟨?_, ?_, ?_, ?_⟩
  · intro u; cases u <;> exact ⟨by decide +kernel, by decide, 'h', rfl, by decide⟩
  · intro s u h hs
    cases u with
    | true => decide
    | false =>
      simp only at h
      split at h
      · cases h
      · split at h
        · rename_i e; subst e; exact absurd (by decide) hs
        · cases h
  · decide
  · decide

/-- The empty policy is read back as an error whenever the empty string is no URL; and a URL with a comma
is not read back whenever what follows the comma is no URL. -/
theorem C52_violated {Url : Type} (parse : Str → Option Url) (display : Url → Str) (u : Url)
    (hd : display u = s!!"http://a.com/b,c") (h0 : parse [] = none) (hc : parse s!!"c" = none) :
    (TimingAllowOrigin.value display ⟨[], false⟩ = .ok [] ∧
      TimingAllowOrigin.fromHeaders parse (oneHeader s!!"timing-allow-origin" []) = .err 400) ∧
    (∃ v, TimingAllowOrigin.value display ⟨[u], false⟩ = .ok v ∧
      TimingAllowOrigin.fromHeaders parse (oneHeader s!!"timing-allow-origin" v) = .err 400) := by
  refine ⟨⟨rfl, ?_⟩, s!!"http://a.com/b,c", ?_, ?_⟩
  · rcases (C52_reads parse (oneHeader s!!"timing-allow-origin" []) [[]] rfl).2 with ⟨l, hl⟩ | h
    · have := (((C52_reads parse (oneHeader s!!"timing-allow-origin" []) [[]] rfl).1 l).mp hl).2
      have e : (([[]] : List Str).flatMap fun v => (split ',' v).map trimStart).filter
          (fun t => t ≠ s!!"*" ∧ t ≠ s!!"\"null\"") = [[]] := by decide
      rw [e] at this
      generalize l.entries = es at this
      cases this with
      | cons h _ => rw [h0] at h; cases h
    · exact h
  · unfold TimingAllowOrigin.value
    simp only [List.map_cons, List.map_nil, hd]
    rfl
  · rcases (C52_reads parse (oneHeader s!!"timing-allow-origin" s!!"http://a.com/b,c") _ rfl).2 with ⟨l, hl⟩ | h
    · have := (((C52_reads parse (oneHeader s!!"timing-allow-origin" s!!"http://a.com/b,c") _ rfl).1 l).mp hl).2
      have e : (([s!!"http://a.com/b,c"] : List Str).flatMap fun v => (split ',' v).map trimStart).filter
          (fun t => t ≠ s!!"*" ∧ t ≠ s!!"\"null\"") = [s!!"http://a.com/b", s!!"c"] := by decide +kernel
      rw [e] at this
      generalize l.entries = es at this
      cases this with
      | cons _ h => cases h with
        | cons h _ => rw [hc] at h; cases h
    · exact h

end HT
