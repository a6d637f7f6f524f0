import Verif.Spec.Directives
import Verif.Lemmas.Mime
import Verif.Props.Cache
import Verif.Props.Security
import Verif.Props.Prefs

/-! Directive lists by the standards: C97. -/

namespace HT
open Spec

theorem dirText_ne {t : Str} {d : Dir} (h : DirText t d) : t ≠ [] := by
  cases h with
  | bare hn => exact hn.1
  | token hn _ => simp
  | quoted hn _ _ => simp

theorem head_token {n r : Str} (hn : Token n) : ∀ c, (n ++ r).head? = some c → isWs c = false := by
  intro c hc
  cases n with
  | nil => exact absurd rfl hn.1
  | cons x n =>
    cases hc
    exact (tchar_not (hn.2 _ (by simp))).1

theorem last_token {n r : Str} (hn : Token n) : ∀ c, (r ++ n).getLast? = some c → isWs c = false := by
  intro c hc
  rw [List.getLast?_append_of_ne_nil _ hn.1] at hc
  exact (tchar_not (hn.2 c (List.mem_of_getLast? hc))).1

theorem dirText_trimmed {t : Str} {d : Dir} (h : DirText t d) : Trimmed t := by
  cases h with
  | bare hn => exact ⟨by simpa using head_token (r := []) hn, by simpa using last_token (r := []) hn⟩
  | @token n v hn hv =>
    refine ⟨head_token hn, ?_⟩
    have := last_token (r := n ++ ['=']) hv
    simpa using this
  | @quoted n e v hn _ _ =>
    refine ⟨head_token hn, ?_⟩
    intro c hc
    rw [show n ++ '=' :: '"' :: (e ++ ['"']) = (n ++ '=' :: '"' :: e) ++ ['"'] by simp, List.getLast?_append] at hc
    simp at hc
    subst hc
    decide

theorem escaped_not_mem {e v : Str} {c : Char} (h : Escaped e v) (hc : c ≠ '\\') (hv : c ∉ v) : c ∉ e := by
  induction h with
  | nil => exact hv
  | plain _ _ _ ih =>
    rw [List.mem_cons, not_or] at hv ⊢
    exact ⟨hv.1, ih hv.2⟩
  | pair _ ih =>
    rw [List.mem_cons, not_or] at hv
    rw [List.mem_cons, List.mem_cons, not_or, not_or]
    exact ⟨hc, hv.1, ih hv.2⟩

theorem dirText_not_mem {t : Str} {d : Dir} {c : Char} (h : DirText t d) (h1 : Mime.isToken c = false) (h2 : c ≠ '=')
    (h3 : c ≠ '"') (h4 : c ≠ '\\') (ha : ∀ v, d.arg = some v → c ∉ v) : c ∉ t := by
  cases h with
  | bare hn => exact Mime.token_not_mem hn h1
  | token hn hv =>
    simp only [List.mem_append, List.mem_cons, not_or]
    exact ⟨Mime.token_not_mem hn h1, h2, Mime.token_not_mem hv h1⟩
  | quoted hn he _ =>
    simp only [List.mem_append, List.mem_cons, not_or, List.not_mem_nil, not_false_eq_true, and_true]
    exact ⟨Mime.token_not_mem hn h1, h2, h3, escaped_not_mem he h4 (ha _ rfl), h3⟩

/-- The member, without white space. -/
def ItemText (t : Str) (m : Option Dir) : Prop :=
  match m with
  | none => t = []
  | some d => DirText t d

/-- Splitting at the separator finds the members, if no quoted argument contains it. -/
theorem dirList_items {sep : Char} {v : Str} {ds : List Dir} (h : DirList sep v ds)
    (h1 : Mime.isToken sep = false) (h2 : sep ≠ '=') (h3 : sep ≠ '"') (h4 : sep ≠ '\\') (h5 : sep ≠ ' ') (h6 : sep ≠ '\t')
    (ha : ∀ d ∈ ds, ∀ v, d.arg = some v → sep ∉ v) :
    ∃ ms, List.Forall₂ ItemText ((split sep v).map trim) ms ∧ ds = ms.filterMap id := by
  obtain ⟨ps, ms, hne, rfl, hf, rfl⟩ := h
  refine ⟨ms, ?_, rfl⟩
  have hall : ∀ p m, DirMember p m → (∀ d, m = some d → ∀ v, d.arg = some v → sep ∉ v) →
      sep ∉ p ∧ ItemText (trim p) m := by
    rintro p m ⟨a, t, b, hwa, hwb, rfl, hm⟩ harg
    have ws : ∀ w : Str, (∀ c ∈ w, c = ' ' ∨ c = '\t') → sep ∉ w ∧ ∀ c ∈ w, isWs c = true := by
      intro w hw
      refine ⟨fun hm => ?_, fun c hc => ?_⟩
      · rcases hw _ hm with h | h
        · exact h5 h
        · exact h6 h
      · rcases hw c hc with rfl | rfl <;> decide
    have ht : sep ∉ t ∧ Trimmed t ∧ ItemText t m := by
      cases m with
      | none =>
        subst hm
        exact ⟨by simp, by decide, rfl⟩
      | some d => exact ⟨dirText_not_mem hm h1 h2 h3 h4 (harg d rfl), dirText_trimmed hm, hm⟩
    refine ⟨?_, ?_⟩
    · simp only [List.mem_append, not_or]
      exact ⟨(ws a hwa).1, ht.1, (ws b hwb).1⟩
    · rw [← List.append_assoc, trim_surround (ws a hwa).2 (ws b hwb).2 ht.2.1]
      exact ht.2.2
  have hitems : ∀ (ps : List Str) (ms : List (Option Dir)), List.Forall₂ DirMember ps ms →
      (∀ d ∈ ms.filterMap id, ∀ v, d.arg = some v → sep ∉ v) →
      (∀ p ∈ ps, sep ∉ p) ∧ List.Forall₂ ItemText (ps.map trim) ms := by
    intro ps ms hf
    induction hf with
    | nil => intro _; exact ⟨by simp, .nil⟩
    | @cons p m ps ms hp hps ih =>
      intro hd
      have hm := hall p m hp (by
        rintro d rfl
        exact hd d (by simp))
      have hr := ih (by
        intro d hmem
        apply hd
        cases m with
        | none => simpa using hmem
        | some d' => simp only [List.filterMap_cons, id]; exact List.mem_cons_of_mem _ hmem)
      refine ⟨?_, ?_⟩
      · intro q hq
        rcases List.mem_cons.mp hq with rfl | hq
        · exact hm.1
        · exact hr.1 q hq
      · exact .cons hm.2 hr.2
  obtain ⟨g1, g2⟩ := hitems ps ms hf ha
  cases ps with
  | nil => exact absurd rfl hne
  | cons p ps =>
    rw [split_join (t := []) (by simp) g1]
    simpa using g2

theorem digits_numeral {v : Str} (h1 : v ≠ []) (h2 : Digits v) : Numeral v (decValue v) :=
  ⟨v, h1, .inl rfl, h2, rfl⟩

/-- One member. -/
theorem cachePart_dir {t : Str} {d : Dir} {o : Option CacheDirective} (h : DirText t d) (hm : CacheMeans d o)
    (hp : PlainNumber d) : CachePart t o := by
  have htext : ∃ rest, t = d.name ++ rest ∧ (rest = [] ∨ ∃ r, rest = '=' :: r) := by
    cases h with
    | bare _ => exact ⟨[], by simp, .inl rfl⟩
    | token _ _ => exact ⟨_, rfl, .inr ⟨_, rfl⟩⟩
    | quoted _ _ _ => exact ⟨_, rfl, .inr ⟨_, rfl⟩⟩
  have hname : Token d.name := by cases h <;> assumption
  cases hm with
  | flag hmem hs =>
    obtain ⟨rest, rfl, hr⟩ := htext
    exact .flag hmem hs hr
  | stale hs ha =>
    cases h with
    | bare _ => exact .bareStale hs
    | token _ _ => cases ha
    | quoted _ _ _ => cases ha
  | timed hmem hs ha hne hd =>
    obtain ⟨hq, hb⟩ := hp ⟨_, hmem, hs⟩
    replace hb := hb _ ha
    cases h with
    | bare _ => cases ha
    | token _ _ =>
      cases ha
      have := CachePart.timed (rest := []) hmem hs (digits_numeral hne hd) hb (.inl rfl)
      simpa using this
    | quoted _ _ _ => cases hq
  | other h1 h2 =>
    obtain ⟨rest, rfl, hr⟩ := htext
    exact .unknown (Mime.token_not_mem hname (by decide)) h1 h2 hr

/-- Cache-Control: directives in any number of header lines, with any white space and empty members, in any case, are read
with their meaning and in order; extensions are skipped. Missing: numbers as quoted strings, commas inside of quoted
strings, and numbers from 2^64 on, see the violations. -/
theorem C97_cache_partial (h : Headers) (vs : List Str) (dss : List (List Dir)) (os : List (Option CacheDirective))
    (hv : h.get s!!"cache-control" = some vs) (ha : ∀ v ∈ vs, Ascii v)
    (hd : List.Forall₂ (DirList ',') vs dss) (hm : List.Forall₂ CacheMeans dss.flatten os)
    (hc : ∀ d ∈ dss.flatten, PlainNumber d ∧ ∀ v, d.arg = some v → ',' ∉ v) :
    CacheControl.fromHeaders h = .ok (some (os.filterMap id)) := by
  rw [(C31_reads h vs hv ha).1]
  clear hv ha
  induction hd generalizing os with
  | nil =>
    cases hm
    exact ⟨[], .nil, rfl⟩
  | @cons v ds vs dss hv hvs ih =>
    rw [List.flatten_cons] at hm hc
    obtain ⟨os1, os2, h1, h2, rfl⟩ : ∃ os1 os2, List.Forall₂ CacheMeans ds os1 ∧ List.Forall₂ CacheMeans dss.flatten os2 ∧
        os = os1 ++ os2 := by
      exact ⟨os.take ds.length, os.drop ds.length, by simpa using List.forall₂_take ds.length hm,
        by simpa using List.forall₂_drop ds.length hm, (List.take_append_drop _ _).symm⟩
    obtain ⟨q2, f2, e2⟩ := ih os2 h2 (fun d hd => hc d (List.mem_append_right _ hd))
    obtain ⟨ms, f1, rfl⟩ := dirList_items hv (by decide) (by decide) (by decide) (by decide) (by decide) (by decide)
      (fun d hd => (hc d (List.mem_append_left _ hd)).2)
    have hone : ∀ (ts : List Str) (ms : List (Option Dir)) (os1 : List (Option CacheDirective)),
        List.Forall₂ ItemText ts ms → List.Forall₂ CacheMeans (ms.filterMap id) os1 →
        (∀ d ∈ ms.filterMap id, PlainNumber d) →
        ∃ q, List.Forall₂ CachePart ts q ∧ os1.filterMap id = q.filterMap id := by
      intro ts ms os1 f
      induction f generalizing os1 with
      | nil => intro hm _; cases hm; exact ⟨[], .nil, rfl⟩
      | @cons t m ts ms ht _ ih =>
        intro hm hp
        cases m with
        | none =>
          obtain ⟨q, f, e⟩ := ih os1 (by simpa using hm) (by simpa using hp)
          have h0 : CachePart t none := by
            have ht : t = [] := ht
            subst ht
            exact .unknown (a := []) (rest := []) (by simp) (by decide) (by decide +kernel) (.inl rfl)
          exact ⟨none :: q, .cons h0 f, by simpa using e⟩
        | some d =>
          simp only [List.filterMap_cons, id] at hm hp
          cases hm with
          | @cons _ o _ os' hd hrest =>
            obtain ⟨q, f, e⟩ := ih os' hrest (fun d hd => hp d (List.mem_cons_of_mem _ hd))
            refine ⟨o :: q, .cons (cachePart_dir ht hd (hp d (by simp))) f, ?_⟩
            cases o with
            | none => exact e
            | some x => exact congrArg (x :: ·) e
    obtain ⟨q1, f1, e1⟩ := hone _ ms os1 f1 h1 (fun d hd => (hc d (List.mem_append_left _ hd)).1)
    refine ⟨q1 ++ q2, ?_, ?_⟩
    · unfold listItems
      rw [List.flatMap_cons]
      exact List.rel_append f1 f2
    · rw [List.filterMap_append, List.filterMap_append, e1, e2]

example : CacheControl.fromHeaders [(s!!"cache-control", [s!!" Max-Age=60 ,, x=\"a b\"", s!!"PUBLIC,max-stale"])] =
    .ok (some [.maxAge ⟨60, 0⟩, .publ, .maxStale none]) := by
  have t : ∀ s : Str, s ≠ [] → s.all Mime.isToken = true → Token s := fun s h1 h2 => Mime.token_of h1 h2
  refine C97_cache_partial _ [s!!" Max-Age=60 ,, x=\"a b\"", s!!"PUBLIC,max-stale"]
    [[⟨s!!"Max-Age", some s!!"60", false⟩, ⟨s!!"x", some s!!"a b", true⟩],
      [⟨s!!"PUBLIC", none, false⟩, ⟨s!!"max-stale", none, false⟩]]
    [some (.maxAge ⟨60, 0⟩), none, some .publ, some (.maxStale none)] (by decide) (by decide) ?_ ?_ ?_
  · refine .cons ⟨[s!!" Max-Age=60 ", [], s!!" x=\"a b\""], [some ⟨s!!"Max-Age", some s!!"60", false⟩, none,
        some ⟨s!!"x", some s!!"a b", true⟩], by decide, by decide, ?_, rfl⟩
      (.cons ⟨[s!!"PUBLIC", s!!"max-stale"], [some ⟨s!!"PUBLIC", none, false⟩, some ⟨s!!"max-stale", none, false⟩],
        by decide, by decide, ?_, rfl⟩ .nil)
    · refine .cons ⟨[' '], s!!"Max-Age=60", [' '], by decide, by decide, by decide, ?_⟩ (.cons ⟨[], [], [], by decide, by decide,
        by decide, rfl⟩ (.cons ⟨[' '], s!!"x=\"a b\"", [], by decide, by decide, by decide, ?_⟩ .nil))
      · exact .token (t s!!"Max-Age" (by decide) (by decide)) (t s!!"60" (by decide) (by decide))
      · refine .quoted (t s!!"x" (by decide) (by decide)) (e := s!!"a b")
          (.plain (by decide) (by decide) (.plain (by decide) (by decide) (.plain (by decide) (by decide) .nil))) ?_
        intro c hc
        rw [← Mime.isQuotable_iff]
        revert c
        decide
    · exact .cons ⟨[], s!!"PUBLIC", [], by decide, by decide, by decide, .bare (t s!!"PUBLIC" (by decide) (by decide))⟩
        (.cons ⟨[], s!!"max-stale", [], by decide, by decide, by decide, .bare (t s!!"max-stale" (by decide) (by decide))⟩
          .nil)
  · refine .cons (.timed (n := s!!"max-age") (v := s!!"60") (by simp [cacheTimed]) (by decide) rfl (by decide) ?_)
      (.cons (.other (by decide) (by decide +kernel)) (.cons (.flag (n := s!!"public") (by decide) (by decide))
        (.cons (.stale (by decide) rfl) .nil)))
    unfold Digits
    decide
  · intro d hd
    simp only [List.flatten_cons, List.flatten_nil, List.append_nil, List.cons_append, List.nil_append, List.mem_cons,
      List.not_mem_nil, or_false] at hd
    rcases hd with rfl | rfl | rfl | rfl
    · exact ⟨fun _ => ⟨rfl, by intro v hv; cases hv; decide⟩, by intro v hv; cases hv; decide⟩
    · refine ⟨fun h => ?_, by intro v hv; cases hv; decide⟩
      obtain ⟨e, he, h⟩ := h
      have : ∀ e ∈ cacheTimed, sameName s!!"x" e.1 = false := by decide +kernel
      rw [this e he] at h
      cases h
    · exact ⟨fun _ => ⟨rfl, by intro v hv; cases hv⟩, by intro v hv; cases hv⟩
    · exact ⟨fun _ => ⟨rfl, by intro v hv; cases hv⟩, by intro v hv; cases hv⟩

theorem escaped_self {v : Str} (h1 : '"' ∉ v) (h2 : '\\' ∉ v) : Escaped v v := by
  induction v with
  | nil => exact .nil
  | cons c v ih =>
    rw [List.mem_cons, not_or] at h1 h2
    exact .plain (Ne.symm h1.1) (Ne.symm h2.1) (ih h1.2 h2.2)

/-- A directive that takes a number fails the header if its argument does not parse. -/
theorem cache_timed_bad {n : Str} {f : Duration → CacheDirective} (hm : (n, f) ∈ cacheTimed) {v : Str}
    (hv : ',' ∉ v ∧ '=' ∉ v ∧ Ascii v) (ht : Trimmed (n ++ '=' :: v)) (hbad : ∀ k, Numeral (lower v) k → ¬ k < 2 ^ 64)
    {h : Headers} (hg : h.get s!!"cache-control" = some [n ++ '=' :: v]) : CacheControl.fromHeaders h = .err 400 := by
  obtain ⟨ha, hlow, heq, -⟩ := timed_low _ hm
  have hcom : ',' ∉ n := by
    have : ∀ n ∈ cacheTimed.map (·.1), ',' ∉ n := by decide +kernel
    exact this n (List.mem_map.mpr ⟨_, hm, rfl⟩)
  have hitems : listItems [n ++ '=' :: v] = [n ++ '=' :: v] := by
    unfold listItems
    rw [List.flatMap_cons, List.flatMap_nil, List.append_nil, split_of_not_mem, List.map_cons, List.map_nil,
      trim_of_trimmed ht]
    simp only [List.mem_append, List.mem_cons, not_or]
    exact ⟨hcom, by decide, hv.1⟩
  have hnone : parseUInt u64Max1 (lower v) = none := by
    cases hp : parseUInt u64Max1 (lower v) with
    | none => rfl
    | some k =>
      obtain ⟨h1, h2⟩ := parseUInt_iff.mp hp
      exact absurd h2 (hbad k h1)
  have heq' : '=' ∉ lower v := by
    rw [mem_lower (by decide) (by decide)]
    exact hv.2.1
  have hpart : CacheDirective.fromStr (n ++ '=' :: v) = .err 400 := by
    unfold CacheDirective.fromStr
    simp only
    rw [trim_of_trimmed ht, if_neg (by simp), lower_append, hlow,
      show lower ('=' :: v) = '=' :: lower v from rfl, split_append_sep heq, split_of_not_mem heq']
    have hd : CacheDirective.parseDur (lower v) = .err 400 := by
      unfold CacheDirective.parseDur
      rw [hnone]
      rfl
    have hg : CacheDirective.getDur [lower v] = .err 400 := hd
    simp only [hd, hg]
    simp only [cacheTimed, List.mem_cons, Prod.mk.injEq, List.not_mem_nil, or_false] at hm
    rcases hm with ⟨rfl, -⟩ | ⟨rfl, -⟩ | ⟨rfl, -⟩ | ⟨rfl, -⟩ | ⟨rfl, -⟩ | ⟨rfl, -⟩ <;> rfl
  rw [cache_read hg, hitems]
  rw [Res.mapM_cons, hpart]
  rfl

/-- The standard asks recipients to accept numbers as quoted strings; they fail the whole header. -/
theorem C97_violated_quoted_number {n : Str} {f : Duration → CacheDirective} (hm : (n, f) ∈ cacheTimed) {v : Str}
    (h1 : v ≠ []) (h2 : Digits v) :
    (∃ d, DirText (n ++ '=' :: '"' :: (v ++ ['"'])) d ∧ CacheMeans d (some (f ⟨decValue v, 0⟩))) ∧
    ∀ h : Headers, h.get s!!"cache-control" = some [n ++ '=' :: '"' :: (v ++ ['"'])] →
      CacheControl.fromHeaders h = .err 400 := by
  have hdig : ∀ c ∈ v, 48 ≤ c.toNat ∧ c.toNat ≤ 57 := by
    intro c hc
    obtain ⟨a, b⟩ := h2 c hc
    rw [Mime.char_le] at a b
    exact ⟨a, b⟩
  have hne : ∀ d : Char, d.toNat < 48 ∨ 57 < d.toNat → d ∉ v := by
    intro d hd hm
    have := hdig d hm
    omega
  have hn : Token n := by
    have : ∀ n ∈ cacheTimed.map (·.1), n ≠ [] ∧ n.all Mime.isToken = true := by decide +kernel
    obtain ⟨a, b⟩ := this n (List.mem_map.mpr ⟨_, hm, rfl⟩)
    exact Mime.token_of a b
  have hesc : Escaped v v := escaped_self (hne '"' (by decide)) (hne '\\' (by decide))
  have hdir : DirText (n ++ '=' :: '"' :: (v ++ ['"'])) ⟨n, some v, true⟩ :=
    .quoted hn hesc (fun c hc => by have := hdig c hc; right; omega)
  refine ⟨⟨_, hdir, .timed hm ?_ rfl h1 h2⟩, ?_⟩
  · rw [sameName_low (timed_low _ hm).1 ⟨(timed_low _ hm).1, (timed_low _ hm).2.1⟩]
    exact (timed_low _ hm).2.1
  · intro h hg
    refine cache_timed_bad hm ?_ (dirText_trimmed hdir) ?_ hg
    · refine ⟨?_, ?_, ?_⟩
      · simp [hne ',' (by decide)]
      · simp [hne '=' (by decide)]
      · intro c hc
        simp only [List.mem_cons, List.mem_append, List.not_mem_nil, or_false] at hc
        rcases hc with rfl | hc | rfl
        · decide
        · have := hdig c hc
          omega
        · decide
    · rintro k ⟨ds, hds, hs, hd, -⟩
      exfalso
      have e : lower ('"' :: (v ++ ['"'])) = '"' :: lower (v ++ ['"']) := rfl
      rw [e] at hs
      rcases hs with hs | hs
      · have := hd '"' (by rw [← hs]; simp)
        revert this
        decide
      · cases hs

example : CacheControl.fromHeaders [(s!!"cache-control", [s!!"max-age=\"60\""])] = .err 400 :=
  (C97_violated_quoted_number (n := s!!"max-age") (v := s!!"60") (f := .maxAge) (by simp [cacheTimed]) (by decide)
    (by unfold Digits; decide)).2 _ (by decide)

theorem digits_lower {v : Str} (h : Digits v) : lower v = v := by
  apply Mime.lower_of_noUpper
  intro c hc
  obtain ⟨a, b⟩ := h c hc
  rw [Mime.char_le] at a b
  simp at a b
  first
    | omega
    | (intro h; rw [Mime.char_le] at h; simp at h; omega)

theorem digits_not_mem {v : Str} (h : Digits v) {d : Char} (hd : d.toNat < 48 ∨ 57 < d.toNat) : d ∉ v := by
  intro hm
  obtain ⟨a, b⟩ := h d hm
  rw [Mime.char_le] at a b
  simp at a b
  omega

theorem digits_token {v : Str} (h1 : v ≠ []) (h : Digits v) : Token v := by
  refine ⟨h1, fun c hc => ?_⟩
  rw [← Mime.isToken_iff]
  obtain ⟨a, b⟩ := h c hc
  unfold Mime.isToken
  simp [a, b]

theorem digits_ascii {v : Str} (h : Digits v) : Ascii v := by
  intro c hc
  obtain ⟨a, b⟩ := h c hc
  rw [Mime.char_le] at a b
  simp at a b
  omega

theorem decValue_unique {v : Str} (h : Digits v) {k : Nat} (hk : Numeral v k) : k = decValue v := by
  obtain ⟨ds, h1, h2 | h2, -, rfl⟩ := hk
  · rw [h2]
  · exfalso
    exact digits_not_mem h (d := '+') (by decide) (by rw [h2]; simp)

/-- The standard asks recipients to treat numbers too large for them as very large; they fail the whole header. -/
theorem C97_violated_large {n : Str} {f : Duration → CacheDirective} (hm : (n, f) ∈ cacheTimed) {v : Str}
    (h1 : v ≠ []) (h2 : Digits v) (h3 : 2 ^ 64 ≤ decValue v) (h : Headers)
    (hg : h.get s!!"cache-control" = some [n ++ '=' :: v]) : CacheControl.fromHeaders h = .err 400 := by
  have hn : Token n := by
    have : ∀ n ∈ cacheTimed.map (·.1), n ≠ [] ∧ n.all Mime.isToken = true := by decide +kernel
    obtain ⟨a, b⟩ := this n (List.mem_map.mpr ⟨_, hm, rfl⟩)
    exact Mime.token_of a b
  refine cache_timed_bad hm ⟨digits_not_mem h2 (by decide), digits_not_mem h2 (by decide), digits_ascii h2⟩
    (dirText_trimmed (.token hn (digits_token h1 h2))) ?_ hg
  intro k hk
  rw [digits_lower h2] at hk
  rw [decValue_unique h2 hk]
  omega

example : CacheControl.fromHeaders [(s!!"cache-control", [s!!"max-age=18446744073709551616"])] = .err 400 :=
  C97_violated_large (n := s!!"max-age") (f := .maxAge) (v := s!!"18446744073709551616") (by simp [cacheTimed]) (by decide) (by unfold Digits; decide)
    (by decide) _ (by decide)

/-- A directive inside of the quoted argument of another directive, even of one that is to be ignored, is obeyed. -/
theorem C97_violated_quoted_comma {v : Str} (h1 : v ≠ []) (h2 : Digits v) (h3 : decValue v < 2 ^ 64) :
    DirList ',' (s!!"x=\"a," ++ (s!!"max-age=" ++ (v ++ s!!",b\""))) [⟨s!!"x", some (s!!"a," ++ (s!!"max-age=" ++ (v ++ s!!",b"))), true⟩] ∧
    CacheMeans ⟨s!!"x", some (s!!"a," ++ (s!!"max-age=" ++ (v ++ s!!",b"))), true⟩ none ∧
    ∀ h : Headers, h.get s!!"cache-control" = some [s!!"x=\"a," ++ (s!!"max-age=" ++ (v ++ s!!",b\""))] →
      CacheControl.fromHeaders h = .ok (some [.maxAge ⟨decValue v, 0⟩]) := by
  have hx : Token s!!"x" := Mime.token_of (by decide) (by decide)
  have other1 : ∀ e ∈ cacheFlags, sameName s!!"x" e.1 = false := by decide
  have other2 : ∀ e ∈ cacheTimed, sameName s!!"x" e.1 = false := by decide +kernel
  refine ⟨⟨[s!!"x=\"a," ++ (s!!"max-age=" ++ (v ++ s!!",b\""))], [some _], by simp, rfl, ?_, rfl⟩,
    .other (fun e he => other1 e he) (fun e he => other2 e he), ?_⟩
  · refine .cons ⟨[], s!!"x=\"a," ++ (s!!"max-age=" ++ (v ++ s!!",b\"")), [], by simp, by simp, by simp, ?_⟩ .nil
    have hq : ∀ c ∈ s!!"a," ++ (s!!"max-age=" ++ (v ++ s!!",b")), QuotedChar c ∧ c ≠ '"' ∧ c ≠ '\\' := by
      intro c hc
      simp only [List.mem_append] at hc
      have lit : ∀ l : Str, (∀ c ∈ l, Mime.isQuotable c = true ∧ c ≠ '"' ∧ c ≠ '\\') → c ∈ l →
          QuotedChar c ∧ c ≠ '"' ∧ c ≠ '\\' := fun l hl hm => ⟨(Mime.isQuotable_iff c).mp (hl c hm).1, (hl c hm).2⟩
      rcases hc with hc | hc | hc | hc
      · exact lit _ (by decide) hc
      · exact lit _ (by decide) hc
      · refine ⟨?_, ?_, ?_⟩
        · have a := digits_ascii h2 c hc
          obtain ⟨b, b'⟩ := h2 c hc
          rw [Mime.char_le] at b b'
          simp at b b'
          right
          omega
        · rintro rfl
          exact digits_not_mem h2 (by decide) hc
        · rintro rfl
          exact digits_not_mem h2 (by decide) hc
      · exact lit _ (by decide) hc
    have := DirText.quoted hx (escaped_self (v := s!!"a," ++ (s!!"max-age=" ++ (v ++ s!!",b")))
      (fun h => (hq _ h).2.1 rfl) (fun h => (hq _ h).2.2 rfl)) (fun c hc => (hq c hc).1)
    simpa using this
  · intro h hg
    have ha : ∀ w ∈ [s!!"x=\"a," ++ (s!!"max-age=" ++ (v ++ s!!",b\""))], Ascii w := by
      intro w hw
      rw [List.mem_singleton] at hw
      subst hw
      rw [spec_ascii_iff, isAscii_append, isAscii_append, isAscii_append, (spec_ascii_iff v).mp (digits_ascii h2)]
      decide
    rw [(C31_reads h _ hg ha).1]
    have hs : split ',' (s!!"x=\"a," ++ (s!!"max-age=" ++ (v ++ s!!",b\""))) =
        [s!!"x=\"a", s!!"max-age=" ++ v, s!!"b\""] := by
      have e : s!!"x=\"a," ++ (s!!"max-age=" ++ (v ++ s!!",b\"")) =
          s!!"x=\"a" ++ ',' :: ((s!!"max-age=" ++ v) ++ ',' :: s!!"b\"") := by simp
      rw [e, split_append_sep (by decide), split_append_sep, split_of_not_mem (by decide)]
      rw [List.mem_append, not_or]
      exact ⟨by decide, digits_not_mem h2 (by decide)⟩
    have ht : trim (s!!"max-age=" ++ v) = s!!"max-age=" ++ v :=
      trim_of_trimmed (dirText_trimmed (.token (n := s!!"max-age") (Mime.token_of (by decide) (by decide)) (digits_token h1 h2)))
    refine ⟨[none, some (.maxAge ⟨decValue v, 0⟩), none], ?_, rfl⟩
    unfold listItems
    rw [List.flatMap_cons, List.flatMap_nil, List.append_nil, hs, List.map_cons, List.map_cons, List.map_cons, List.map_nil, ht]
    refine .cons ?_ (.cons ?_ (.cons ?_ .nil))
    · exact .unknown (a := s!!"x") (rest := s!!"=\"a") (by decide) (by decide) (by decide +kernel) (.inr ⟨_, rfl⟩)
    · have := CachePart.timed (n := s!!"max-age") (f := .maxAge) (a := s!!"max-age") (rest := []) (by simp [cacheTimed])
        (by decide) (digits_numeral h1 h2) h3 (.inl rfl)
      simpa using this
    · exact .unknown (a := s!!"b\"") (rest := []) (by decide) (by decide) (by decide +kernel) (.inl rfl)

example : CacheControl.fromHeaders [(s!!"cache-control", [s!!"x=\"a,max-age=60,b\""])] = .ok (some [.maxAge ⟨60, 0⟩]) :=
  (C97_violated_quoted_comma (v := s!!"60") (by decide) (by unfold Digits; decide) (by decide)).2.2 _ (by decide)

/-! ### Strict-Transport-Security -/

/-- The directives that are known are written in lower case, and the number is not quoted and below 2^64. -/
def HstsPlain (ds : List Dir) : Prop :=
  ∀ d ∈ ds,
    (sameName d.name s!!"max-age" = true → d.name = s!!"max-age" ∧ d.quoted = false ∧
      ∀ v, d.arg = some v → decValue v < 2 ^ 64) ∧
    (sameName d.name s!!"includeSubDomains" = true → d.name = s!!"includesubdomains") ∧
    (sameName d.name s!!"preload" = true → d.name = s!!"preload")

theorem dirText_flag {t : Str} {d : Dir} (h : DirText t d) (ht : '=' ∉ t) : d = ⟨t, none, false⟩ := by
  cases h with
  | bare _ => rfl
  | token _ _ => simp at ht
  | quoted _ _ _ => simp at ht

theorem dirText_arg {n t : Str} {d : Dir} (h : DirText t d) (hn : '=' ∉ n) (hq : d.name = n → d.quoted = false) :
    stripPrefix (n ++ ['=']) t = if d.name = n then d.arg else none := by
  have key : ∀ m w : Str, Token m → stripPrefix (n ++ ['=']) (m ++ '=' :: w) = if m = n then some w else none := by
    intro m w hm
    have hs : splitOnce '=' (m ++ '=' :: w) = some (m, w) :=
      splitOnce_append (Mime.token_not_mem hm (by decide)) w
    by_cases h : m = n
    · rw [if_pos h, stripPrefix_eq_some, h]
      simp
    · rw [if_neg h]
      cases hp : stripPrefix (n ++ ['=']) (m ++ '=' :: w) with
      | none => rfl
      | some r =>
        exfalso
        have e := stripPrefix_eq_some.mp hp
        rw [List.append_assoc, List.singleton_append] at e
        rw [e, splitOnce_append hn] at hs
        simp only [Option.some.injEq, Prod.mk.injEq] at hs
        exact h hs.1.symm
  cases h with
  | @bare m hm =>
    have : stripPrefix (n ++ ['=']) t = none := by
      cases hp : stripPrefix (n ++ ['=']) t with
      | none => rfl
      | some r =>
        have e := stripPrefix_eq_some.mp hp
        have := Mime.token_not_mem hm (c := '=') (by decide)
        rw [e] at this
        simp at this
    rw [this]
    simp
  | token hm _ => exact key _ _ hm
  | @quoted m e v hm _ _ =>
    rw [key _ _ hm]
    by_cases h : m = n
    · exact absurd (hq h) (by simp)
    · rw [if_neg h, if_neg h]

theorem items_mem {ts : List Str} {ms : List (Option Dir)} (h : List.Forall₂ ItemText ts ms) :
    (∀ t ∈ ts, t ≠ [] → ∃ d ∈ ms.filterMap id, DirText t d) ∧
    ∀ d ∈ ms.filterMap id, ∃ t ∈ ts, DirText t d := by
  induction h with
  | nil => simp
  | @cons t m ts ms h1 _ ih =>
    cases m with
    | none =>
      have h1 : t = [] := h1
      subst h1
      refine ⟨?_, ?_⟩
      · intro t ht hne
        rcases List.mem_cons.mp ht with rfl | ht
        · exact absurd rfl hne
        · simpa using ih.1 t ht hne
      · intro d hd
        obtain ⟨t, a, b⟩ := ih.2 d (by simpa using hd)
        exact ⟨t, List.mem_cons_of_mem _ a, b⟩
    | some d' =>
      have h1 : DirText t d' := h1
      refine ⟨?_, ?_⟩
      · intro t' ht hne
        rcases List.mem_cons.mp ht with rfl | ht
        · exact ⟨d', by simp, h1⟩
        · obtain ⟨d, a, b⟩ := ih.1 t' ht hne
          exact ⟨d, by simp only [List.filterMap_cons, id]; exact List.mem_cons_of_mem _ a, b⟩
      · intro d hd
        simp only [List.filterMap_cons, id, List.mem_cons] at hd
        rcases hd with rfl | hd
        · exact ⟨t, by simp, h1⟩
        · obtain ⟨t, a, b⟩ := ih.2 d hd
          exact ⟨t, List.mem_cons_of_mem _ a, b⟩

theorem items_ages {ts : List Str} {ms : List (Option Dir)} (h : List.Forall₂ ItemText ts ms)
    (hq : ∀ d ∈ ms.filterMap id, d.name = s!!"max-age" → d.quoted = false) :
    ts.filterMap (stripPrefix s!!"max-age=") =
      (ms.filterMap id).filterMap fun d => if d.name = s!!"max-age" then d.arg else none := by
  induction h with
  | nil => rfl
  | @cons t m ts ms h1 _ ih =>
    cases m with
    | none =>
      have h1 : t = [] := h1
      subst h1
      have e : stripPrefix s!!"max-age=" [] = none := by decide
      rw [List.filterMap_cons_none e]
      exact ih hq
    | some d' =>
      have h1 : DirText t d' := h1
      have hi := ih (fun d hd => hq d (by simp only [List.filterMap_cons, id]; exact List.mem_cons_of_mem _ hd))
      have ha := dirText_arg h1 (n := s!!"max-age") (by decide) (hq d' (by simp))
      have ha' : stripPrefix s!!"max-age=" t = if d'.name = s!!"max-age" then d'.arg else none := ha
      rw [List.filterMap_cons, hi, ha', List.filterMap_cons_some (f := id) (b := d') rfl, List.filterMap_cons]

theorem pairwise_mem {α : Type} {R : α → α → Prop} (hs : ∀ x y, R x y → R y x) {l : List α} (h : l.Pairwise R) {a b : α}
    (ha : a ∈ l) (hb : b ∈ l) (hne : a ≠ b) : R a b := by
  induction h with
  | nil => cases ha
  | cons h1 _ ih =>
    rcases List.mem_cons.mp ha with rfl | ha' <;> rcases List.mem_cons.mp hb with rfl | hb'
    · exact absurd rfl hne
    · exact h1 _ hb'
    · exact hs _ _ (h1 _ ha')
    · exact ih ha' hb'

/-- C97 for Strict-Transport-Security. Missing: names that are not in lower case, quoted numbers and numbers of
2^64 or more, `;` in quoted arguments, and values that the standard forbids; see the theorems below. -/
theorem C97_hsts_partial {v : Str} {ds : List Dir} {p : Hsts} (hl : DirList ';' v ds) (hm : HstsMeans ds p)
    (hp : HstsPlain ds) (hs : ∀ d ∈ ds, ∀ a, d.arg = some a → ';' ∉ a) (h : Headers) (vs : List Str)
    (hg : h.get s!!"strict-transport-security" = some (vs ++ [v])) :
    Hsts.fromHeaders h = .ok (some p) := by
  rw [((C51_reads h).2 vs v hg).1]
  obtain ⟨ms, hf, rfl⟩ := dirList_items hl (by decide) (by decide) (by decide) (by decide) (by decide) (by decide) hs
  have hf : List.Forall₂ ItemText (semiItems v) ms := hf
  obtain ⟨m1, m2⟩ := items_mem hf
  obtain ⟨d, hd, hn, a, ha, ha1, ha2, ha3⟩ := hm.maxAge
  have hpd := (hp d hd).1 hn
  have hages : maxAges v = _ := items_ages hf (fun e he hen =>
    ((hp e he).1 (by rw [hen]; decide)).2.1)
  have hall : ∀ t ∈ maxAges v, t = a := by
    intro t ht
    rw [hages, List.mem_filterMap] at ht
    obtain ⟨e, he, ht⟩ := ht
    split at ht
    · rename_i hen
      have : e = d := by
        by_contra hne
        have hsym : ∀ x y : Dir, sameName x.name y.name = false → sameName y.name x.name = false := by
          intro x y hxy
          cases hyx : sameName y.name x.name with
          | false => rfl
          | true =>
            obtain ⟨a, b, c⟩ := (sameName_iff _ _).mp hyx
            rw [(sameName_iff _ _).mpr ⟨b, a, c.symm⟩] at hxy
            cases hxy
        have := pairwise_mem hsym hm.once he hd hne
        rw [hen, hpd.1] at this
        revert this
        decide
      subst this
      rw [ha] at ht
      exact (Option.some.inj ht).symm
    · cases ht
  have hmem : a ∈ maxAges v := by
    rw [hages, List.mem_filterMap]
    exact ⟨d, hd, by rw [if_pos hpd.1, ha]⟩
  have hnum : Numeral a (decValue a) := digits_numeral ha1 ha2
  have flag : ∀ n m : Str, m ≠ [] → '=' ∉ m → sameName m n = true →
      (∀ e ∈ ms.filterMap id, sameName e.name n = true → e.name = m) →
      ((∃ e ∈ ms.filterMap id, sameName e.name n = true ∧ e.arg = none) ↔ m ∈ semiItems v) := by
    intro n m hm0 hm1 hm2 hall
    refine ⟨?_, ?_⟩
    · rintro ⟨e, he, hen, hea⟩
      obtain ⟨t, ht, htd⟩ := m2 e he
      have := hall e he hen
      cases htd with
      | bare _ => rw [← this]; exact ht
      | token _ _ => cases hea
      | quoted _ _ _ => cases hea
    · intro hmem
      obtain ⟨e, he, het⟩ := m1 m hmem hm0
      have := dirText_flag het hm1
      exact ⟨e, he, by rw [this]; exact hm2, by rw [this]⟩
  refine ⟨?_, ?_, ?_, ?_, ?_⟩
  · intro t ht
    rw [hall t ht]
    exact ⟨_, hnum, hpd.2.2 a ha⟩
  · refine ⟨a, ?_, by rw [ha3]; exact hnum⟩
    cases hlast : (maxAges v).getLast? with
    | none =>
      rw [List.getLast?_eq_none_iff] at hlast
      rw [hlast] at hmem
      cases hmem
    | some t => rw [hall t (List.mem_of_getLast? hlast)]
  · rw [ha3]
  · rw [hm.subdomains]
    exact flag _ _ (by decide) (by decide) (by decide) fun e he => (hp e he).2.1
  · rw [hm.preload]
    exact flag _ _ (by decide) (by decide) (by decide) fun e he => (hp e he).2.2

theorem same_maxAge : sameName s!!"max-age" s!!"max-age" = true := by decide

theorem token_maxAge : Token s!!"max-age" := Mime.token_of (by decide) (by decide)

example : Hsts.fromHeaders [(s!!"strict-transport-security", [s!!"max-age=60 ;; x=\"y z\"; preload"])]
    = .ok (some ⟨⟨60, 0⟩, false, true⟩) := by
  have hx : DirText s!!"x=\"y z\"" ⟨s!!"x", some s!!"y z", true⟩ :=
    .quoted (n := s!!"x") (e := s!!"y z") (Mime.token_of (by decide) (by decide)) (escaped_self (by decide) (by decide))
      (fun c hc => (Mime.isQuotable_iff c).mp (by revert c; decide))
  have hl : DirList ';' s!!"max-age=60 ;; x=\"y z\"; preload"
      [⟨s!!"max-age", some s!!"60", false⟩, ⟨s!!"x", some s!!"y z", true⟩, ⟨s!!"preload", none, false⟩] :=
    ⟨[s!!"max-age=60 ", [], s!!" x=\"y z\"", s!!" preload"],
      [some ⟨s!!"max-age", some s!!"60", false⟩, none, some ⟨s!!"x", some s!!"y z", true⟩, some ⟨s!!"preload", none, false⟩],
      by simp, by decide,
      .cons ⟨[], s!!"max-age=60", [' '], by simp, by simp, rfl,
        .token (n := s!!"max-age") token_maxAge (Mime.token_of (by decide) (by decide))⟩
      (.cons ⟨[], [], [], by simp, by simp, rfl, rfl⟩
      (.cons ⟨[' '], _, [], by simp, by simp, rfl, hx⟩
      (.cons ⟨[' '], s!!"preload", [], by simp, by simp, rfl, .bare (Mime.token_of (by decide) (by decide))⟩ .nil))), rfl⟩
  refine C97_hsts_partial hl ⟨by simp; decide, ⟨⟨s!!"max-age", some s!!"60", false⟩, by simp, by decide, s!!"60", rfl,
    by decide, by unfold Digits; decide, by decide⟩, ?_, ?_⟩ ?_ ?_ _ []
    (by decide)
  · simp; decide
  · simp; decide
  · unfold HstsPlain
    simp
    decide
  · simp

/-- The list of two members, without white space. -/
theorem dirList_two {sep : Char} {t1 t2 : Str} {d1 d2 : Dir} (h1 : DirText t1 d1) (h2 : DirText t2 d2) :
    DirList sep (t1 ++ sep :: t2) [d1, d2] :=
  ⟨[t1, t2], [some d1, some d2], by simp, by simp [join], .cons ⟨[], t1, [], by simp, by simp, by simp, h1⟩
    (.cons ⟨[], t2, [], by simp, by simp, by simp, h2⟩ .nil), rfl⟩

theorem semiItems_two {t1 t2 : Str} {d1 d2 : Dir} (h1 : DirText t1 d1) (h2 : DirText t2 d2) (n1 : ';' ∉ t1) (n2 : ';' ∉ t2) :
    semiItems (t1 ++ ';' :: t2) = [t1, t2] := by
  unfold semiItems
  rw [split_append_sep n1, split_of_not_mem n2, List.map_cons, List.map_cons, List.map_nil,
    trim_of_trimmed (dirText_trimmed h1), trim_of_trimmed (dirText_trimmed h2)]

theorem strip_maxAge (v : Str) : stripPrefix s!!"max-age=" (s!!"max-age=" ++ v) = some v :=
  stripPrefix_eq_some.mpr rfl

/-- `includeSubDomains` is not seen unless it is written in lower case, though its name does not depend on case: the
policy is read as one that does not include subdomains. The spelling of the standard is not seen either. -/
theorem C97_violated_hsts_case {v n : Str} (h1 : v ≠ []) (h2 : Digits v) (h3 : decValue v < 2 ^ 64) (hn : Token n)
    (hs : sameName n s!!"includeSubDomains" = true) (hne : n ≠ s!!"includesubdomains") :
    DirList ';' (s!!"max-age=" ++ v ++ ';' :: n) [⟨s!!"max-age", some v, false⟩, ⟨n, none, false⟩] ∧
    (∀ p, HstsMeans [⟨s!!"max-age", some v, false⟩, ⟨n, none, false⟩] p ↔ p = ⟨⟨decValue v, 0⟩, true, false⟩) ∧
    ∀ h : Headers, h.get s!!"strict-transport-security" = some [s!!"max-age=" ++ v ++ ';' :: n] →
      Hsts.fromHeaders h = .ok (some ⟨⟨decValue v, 0⟩, false, false⟩) := by
  have t1 : DirText (s!!"max-age=" ++ v) ⟨s!!"max-age", some v, false⟩ :=
    .token (n := s!!"max-age") token_maxAge (digits_token h1 h2)
  have t2 : DirText n ⟨n, none, false⟩ := .bare hn
  obtain ⟨hna, -, hnl⟩ := (sameName_iff _ _).mp hs
  have hother : ∀ m, lower m ≠ s!!"includesubdomains" → sameName n m = false := by
    intro m hm
    cases h : sameName n m with
    | false => rfl
    | true =>
      obtain ⟨-, -, e⟩ := (sameName_iff _ _).mp h
      rw [hnl] at e
      exact absurd (e.symm.trans (by decide)) hm
  have hnp := hother s!!"preload" (by decide)
  have hnm := hother s!!"max-age" (by decide)
  have hmn : sameName s!!"max-age" n = false := by
    cases h : sameName s!!"max-age" n with
    | false => rfl
    | true =>
      obtain ⟨a, b, c⟩ := (sameName_iff _ _).mp h
      rw [(sameName_iff _ _).mpr ⟨b, a, c.symm⟩] at hnm
      cases hnm
  refine ⟨dirList_two t1 t2, ?_, ?_⟩
  · intro p
    refine ⟨fun hm => ?_, ?_⟩
    · obtain ⟨d, hd, hdn, a, ha, -, -, hp⟩ := hm.maxAge
      have e1 : p.includeSubdomains = true := hm.subdomains.mpr ⟨⟨n, none, false⟩, by simp, hs, rfl⟩
      have e2 : p.preload = false := by
        cases hpp : p.preload with
        | false => rfl
        | true =>
          obtain ⟨e, he, hen, hea⟩ := hm.preload.mp hpp
          simp only [List.mem_cons, List.not_mem_nil, or_false] at he
          rcases he with rfl | rfl
          · cases hea
          · simp [hnp] at hen
      simp only [List.mem_cons, List.not_mem_nil, or_false] at hd
      rcases hd with rfl | rfl
      · simp only [Option.some.injEq] at ha
        subst ha
        cases p
        simp_all
      · cases ha
    · rintro rfl
      refine ⟨?_, ⟨⟨s!!"max-age", some v, false⟩, by simp, same_maxAge, v, rfl, h1, h2, rfl⟩, ?_, ?_⟩
      · rw [List.pairwise_cons]
        exact ⟨by simpa using hmn, by simp⟩
      · refine ⟨fun _ => ⟨⟨n, none, false⟩, by simp, hs, rfl⟩, fun _ => rfl⟩
      · refine ⟨fun h => (by cases h), ?_⟩
        rintro ⟨e, he, hen, hea⟩
        simp only [List.mem_cons, List.not_mem_nil, or_false] at he
        rcases he with rfl | rfl
        · cases hea
        · rw [hnp] at hen
          cases hen
  · intro h hg
    rw [((C51_reads h).2 [] _ hg).1]
    have n1 : ';' ∉ s!!"max-age=" ++ v := by
      rw [List.mem_append, not_or]
      exact ⟨by decide, digits_not_mem h2 (by decide)⟩
    have hi := semiItems_two t1 t2 n1 (Mime.token_not_mem hn (by decide))
    have hsn : stripPrefix s!!"max-age=" n = none := by
      have := dirText_arg t2 (n := s!!"max-age") (by decide) (fun _ => rfl)
      simpa using this
    have hma : maxAges (s!!"max-age=" ++ v ++ ';' :: n) = [v] := by
      unfold maxAges
      rw [hi, List.filterMap_cons_some (strip_maxAge v), List.filterMap_cons_none hsn, List.filterMap_nil]
    have hlast : ∀ m : Str, '=' ∉ m → m ≠ n → m ∉ [s!!"max-age=" ++ v, n] := by
      intro m hm1 hm2 hm
      simp only [List.mem_cons, List.not_mem_nil, or_false] at hm
      rcases hm with rfl | rfl
      · simp at hm1
      · exact hm2 rfl
    refine ⟨?_, ⟨v, by rw [hma]; rfl, digits_numeral h1 h2⟩, rfl, ?_, ?_⟩
    · intro t ht
      rw [hma, List.mem_singleton] at ht
      subst ht
      exact ⟨_, digits_numeral h1 h2, h3⟩
    · rw [hi]
      exact ⟨fun h => (by cases h), fun h => absurd h (hlast _ (by decide) (Ne.symm hne))⟩
    · rw [hi]
      refine ⟨fun h => (by cases h), fun h => absurd h (hlast _ (by decide) ?_)⟩
      rintro rfl
      revert hnp
      decide

example : Hsts.fromHeaders [(s!!"strict-transport-security", [s!!"max-age=60;includeSubDomains"])]
    = .ok (some ⟨⟨60, 0⟩, false, false⟩) :=
  (C97_violated_hsts_case (v := s!!"60") (n := s!!"includeSubDomains") (by decide) (by unfold Digits; decide) (by decide)
    (Mime.token_of (by decide) (by decide)) (by decide) (by decide)).2.2 _ (by decide)

/-- A number that is quoted, which the standard allows, fails the header: there is then no policy at all. -/
theorem C97_violated_hsts_quoted {v : Str} (h1 : v ≠ []) (h2 : Digits v) :
    DirList ';' (s!!"max-age=\"" ++ (v ++ ['"'])) [⟨s!!"max-age", some v, true⟩] ∧
    HstsMeans [⟨s!!"max-age", some v, true⟩] ⟨⟨decValue v, 0⟩, false, false⟩ ∧
    ∀ h : Headers, h.get s!!"strict-transport-security" = some [s!!"max-age=\"" ++ (v ++ ['"'])] →
      Hsts.fromHeaders h = .err 400 := by
  have hq : ∀ c ∈ v, QuotedChar c := by
    intro c hc
    have a := digits_ascii h2 c hc
    obtain ⟨b, b'⟩ := h2 c hc
    rw [Mime.char_le] at b b'
    simp at b b'
    right
    omega
  have t1 : DirText (s!!"max-age=\"" ++ (v ++ ['"'])) ⟨s!!"max-age", some v, true⟩ :=
    .quoted (n := s!!"max-age") token_maxAge (escaped_self (digits_not_mem h2 (by decide)) (digits_not_mem h2 (by decide))) hq
  refine ⟨⟨[_], [some _], by simp, rfl, .cons ⟨[], _, [], by simp, by simp, by simp, t1⟩ .nil, rfl⟩, ?_, ?_⟩
  · refine ⟨by simp, ⟨⟨s!!"max-age", some v, true⟩, by simp, same_maxAge, v, rfl, h1, h2, rfl⟩, ?_, ?_⟩ <;> simp
  · intro h hg
    rw [((C51_reads h).2 [] _ hg).2.1]
    right
    have hi : semiItems (s!!"max-age=\"" ++ (v ++ ['"'])) = [s!!"max-age=\"" ++ (v ++ ['"'])] := by
      unfold semiItems
      rw [split_of_not_mem, List.map_cons, List.map_nil, trim_of_trimmed (dirText_trimmed t1)]
      simp only [List.mem_append, not_or]
      exact ⟨by decide, digits_not_mem h2 (by decide), by decide⟩
    refine ⟨'"' :: (v ++ ['"']), ?_, ?_⟩
    · unfold maxAges
      rw [hi, List.mem_filterMap]
      exact ⟨_, by simp, strip_maxAge ('"' :: (v ++ ['"']))⟩
    · rintro ⟨k, ⟨ds, hne, h | h, hd, -⟩, -⟩
      · have := hd '"' (by rw [← h]; simp)
        revert this
        decide
      · cases h

example : Hsts.fromHeaders [(s!!"strict-transport-security", [s!!"max-age=\"60\""])] = .err 400 :=
  (C97_violated_hsts_quoted (v := s!!"60") (by decide) (by unfold Digits; decide)).2.2 _ (by decide)

/-- A value that repeats a directive means nothing, and user agents must ignore it; the last number is taken. -/
theorem C97_violated_hsts_twice {a b : Str} (a1 : a ≠ []) (a2 : Digits a) (a3 : decValue a < 2 ^ 64) (b1 : b ≠ [])
    (b2 : Digits b) (b3 : decValue b < 2 ^ 64) :
    DirList ';' (s!!"max-age=" ++ a ++ ';' :: (s!!"max-age=" ++ b))
      [⟨s!!"max-age", some a, false⟩, ⟨s!!"max-age", some b, false⟩] ∧
    (∀ p, ¬ HstsMeans [⟨s!!"max-age", some a, false⟩, ⟨s!!"max-age", some b, false⟩] p) ∧
    ∀ h : Headers, h.get s!!"strict-transport-security" = some [s!!"max-age=" ++ a ++ ';' :: (s!!"max-age=" ++ b)] →
      Hsts.fromHeaders h = .ok (some ⟨⟨decValue b, 0⟩, false, false⟩) := by
  have t : ∀ v, v ≠ [] → Digits v → DirText (s!!"max-age=" ++ v) ⟨s!!"max-age", some v, false⟩ := fun v h1 h2 =>
    .token (n := s!!"max-age") token_maxAge (digits_token h1 h2)
  have n : ∀ v, Digits v → ';' ∉ s!!"max-age=" ++ v := by
    intro v h2
    rw [List.mem_append, not_or]
    exact ⟨by decide, digits_not_mem h2 (by decide)⟩
  refine ⟨dirList_two (t a a1 a2) (t b b1 b2), ?_, ?_⟩
  · intro p hm
    have := (List.pairwise_cons.mp hm.once).1 ⟨s!!"max-age", some b, false⟩ (by simp)
    cases same_maxAge.symm.trans this
  · intro h hg
    rw [((C51_reads h).2 [] _ hg).1]
    have hi := semiItems_two (t a a1 a2) (t b b1 b2) (n a a2) (n b b2)
    have hma : maxAges (s!!"max-age=" ++ a ++ ';' :: (s!!"max-age=" ++ b)) = [a, b] := by
      unfold maxAges
      rw [hi, List.filterMap_cons_some (strip_maxAge a), List.filterMap_cons_some (strip_maxAge b), List.filterMap_nil]
    have hno : ∀ m : Str, '=' ∉ m → m ∉ [s!!"max-age=" ++ a, s!!"max-age=" ++ b] := by
      intro m hm1 hm
      simp only [List.mem_cons, List.not_mem_nil, or_false] at hm
      rcases hm with rfl | rfl <;> simp at hm1
    refine ⟨?_, ⟨b, by rw [hma]; rfl, digits_numeral b1 b2⟩, rfl, ?_, ?_⟩
    · intro t ht
      rw [hma] at ht
      simp only [List.mem_cons, List.not_mem_nil, or_false] at ht
      rcases ht with rfl | rfl
      · exact ⟨_, digits_numeral a1 a2, a3⟩
      · exact ⟨_, digits_numeral b1 b2, b3⟩
    · rw [hi]
      exact ⟨fun h => (by cases h), fun h => absurd h (hno _ (by decide))⟩
    · rw [hi]
      exact ⟨fun h => (by cases h), fun h => absurd h (hno _ (by decide))⟩

example : Hsts.fromHeaders [(s!!"strict-transport-security", [s!!"max-age=60;max-age=0"])] = .ok (some ⟨⟨0, 0⟩, false, false⟩) :=
  (C97_violated_hsts_twice (a := s!!"60") (b := s!!"0") (by decide) (by unfold Digits; decide) (by decide) (by decide)
    (by unfold Digits; decide) (by decide)).2.2 _ (by decide)

end HT
