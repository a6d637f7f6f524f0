import Verif.Lemmas.Forwarded
import Verif.Lemmas.Typed
import Verif.Props.Simple

/-! `Forwarded` and the string parsers under it: C48, C49, C50, C61. -/

namespace HT

open Spec ParseUtils

namespace Forwarded

/-! ### The effect of a list of parameters -/

instance (k : Str) : Decidable (IsFor k) := inferInstanceAs (Decidable (_ = _))

theorem not_isFor_by : ¬ IsFor s!!"by" := by decide
theorem not_isFor_host : ¬ IsFor s!!"host" := by decide
theorem not_isFor_proto : ¬ IsFor s!!"proto" := by decide

theorem valuesOf_cons (k : Str) (p : Str × Str) (ps : List (Str × Str)) :
    valuesOf k (p :: ps) = if p.1 = k then p.2 :: valuesOf k ps else valuesOf k ps := by
  unfold valuesOf
  rw [List.filter_cons]
  by_cases h : p.1 = k
  · simp [h]
  · simp [h]

theorem toList_append_eq {o o' : Option Str} {l : List Str} (v : Str) :
    (o.toList ++ v :: l = o'.toList) ↔ o = none ∧ l = [] ∧ o' = some v := by
  cases o <;> cases o' <;> simp
  constructor
  · rintro ⟨rfl, rfl⟩; exact ⟨rfl, rfl⟩
  · rintro ⟨rfl, rfl⟩; exact ⟨rfl, rfl⟩

theorem runPairs_iff (ps : List (Str × Str)) : ∀ (f f' : Forwarded),
    runPairs f ps = .ok f' ↔
      f'.forwardedFor = f.forwardedFor ++ (ps.filter (fun p => lower p.1 = s!!"for")).map (·.2) ∧
      f.by'.toList ++ valuesOf s!!"by" ps = f'.by'.toList ∧
      f.host.toList ++ valuesOf s!!"host" ps = f'.host.toList ∧
      f.proto.toList ++ valuesOf s!!"proto" ps = f'.proto.toList := by
  induction ps with
  | nil =>
    intro f f'
    obtain ⟨a, b, c, d⟩ := f
    obtain ⟨a', b', c', d'⟩ := f'
    simp only [runPairs, valuesOf, List.filter_nil, List.map_nil, List.append_nil, Res.ok.injEq,
      Forwarded.mk.injEq]
    have : ∀ x y : Option Str, x.toList = y.toList ↔ x = y := by
      intro x y; cases x <;> cases y <;> simp
    rw [this, this, this]
    constructor
    · rintro ⟨rfl, rfl, rfl, rfl⟩; exact ⟨rfl, rfl, rfl, rfl⟩
    · rintro ⟨rfl, rfl, rfl, rfl⟩; exact ⟨rfl, rfl, rfl, rfl⟩
  | cons p ps ih =>
    obtain ⟨k, v⟩ := p
    intro f f'
    by_cases hk : IsFor k
    · have hk' : lower k = s!!"for" := hk
      have h1 : k ≠ s!!"by" := by rintro rfl; exact not_isFor_by hk
      have h2 : k ≠ s!!"host" := by rintro rfl; exact not_isFor_host hk
      have h3 : k ≠ s!!"proto" := by rintro rfl; exact not_isFor_proto hk
      rw [runPairs_for hk, ih, valuesOf_cons, valuesOf_cons, valuesOf_cons]
      rw [if_neg h1, if_neg h2, if_neg h3, List.filter_cons]
      simp [push, hk']
    · have hk' : ¬ lower k = s!!"for" := hk
      rw [runPairs_other hk, valuesOf_cons, valuesOf_cons, valuesOf_cons, List.filter_cons]
      simp only [hk', decide_false, Bool.false_eq_true, if_false]
      unfold store
      by_cases h1 : k = s!!"by"
      · subst h1
        rw [if_pos rfl, if_pos rfl, if_neg (by decide : ¬ s!!"by" = s!!"host"),
          if_neg (by decide : ¬ s!!"by" = s!!"proto"), toList_append_eq]
        cases hb : f.by' with
        | some b => simp
        | none =>
          simp only [Option.isSome_none, Bool.false_eq_true, if_false, Res.bind_ok]
          rw [ih]
          simp only [Option.toList_some, List.singleton_append]
          cases hb' : f'.by' with
          | none => simp
          | some b' =>
            simp
            tauto
      · rw [if_neg h1, if_neg h1]
        by_cases h2 : k = s!!"host"
        · subst h2
          rw [if_pos rfl, if_pos rfl, if_neg (by decide : ¬ s!!"host" = s!!"proto"), toList_append_eq]
          cases hb : f.host with
          | some b => simp
          | none =>
            simp only [Option.isSome_none, Bool.false_eq_true, if_false, Res.bind_ok]
            rw [ih]
            simp only [Option.toList_some, List.singleton_append]
            cases hb' : f'.host with
            | none => simp
            | some b' =>
              simp
              tauto
        · rw [if_neg h2, if_neg h2]
          by_cases h3 : k = s!!"proto"
          · subst h3
            rw [if_pos rfl, if_pos rfl, toList_append_eq]
            cases hb : f.proto with
            | some b => simp
            | none =>
              simp only [Option.isSome_none, Bool.false_eq_true, if_false, Res.bind_ok]
              rw [ih]
              simp only [Option.toList_some, List.singleton_append]
              cases hb' : f'.proto with
              | none => simp
              | some b' =>
                simp
                tauto
          · rw [if_neg h3, if_neg h3]
            simp only [Res.bind_ok]
            rw [ih]

theorem runPairs_clean (ps : List (Str × Str)) : ∀ f : Forwarded, (runPairs f ps).Clean 500 := by
  induction ps with
  | nil => intro f; exact .inl ⟨f, rfl⟩
  | cons p ps ih =>
    intro f
    obtain ⟨k, v⟩ := p
    rw [runPairs]
    split
    · exact ih _
    · rcases store_err (f := f) (k := k) (v := v) with ⟨f', h⟩ | h
      · rw [h]; exact ih f'
      · rw [h]; exact .inr rfl

theorem amounts_iff (ps : List (Str × Str)) (f : Forwarded) : runPairs {} ps = .ok f ↔ AmountsTo ps f := by
  rw [runPairs_iff]
  unfold AmountsTo
  simp

theorem noRepeats_iff (ps : List (Str × Str)) : (∃ f, runPairs {} ps = .ok f) ↔ NoRepeats ps := by
  have key : ∀ l : List Str, (∃ o : Option Str, l = o.toList) ↔ l.length ≤ 1 := by
    intro l
    constructor
    · rintro ⟨o, rfl⟩; cases o <;> simp
    · intro h
      match l, h with
      | [], _ => exact ⟨none, rfl⟩
      | [a], _ => exact ⟨some a, rfl⟩
  unfold NoRepeats
  simp only [List.forall_mem_cons, ← key]
  constructor
  · rintro ⟨f, h⟩
    rw [amounts_iff] at h
    exact ⟨⟨_, h.2.1⟩, ⟨_, h.2.2.1⟩, ⟨_, h.2.2.2⟩, by simp⟩
  · rintro ⟨⟨a, ha⟩, ⟨b, hb⟩, ⟨c, hc⟩, _⟩
    exact ⟨⟨a, _, b, c⟩, (amounts_iff _ _).mpr ⟨rfl, ha, hb, hc⟩⟩

/-! ### Reading -/

/-- What reading an ASCII text gives: it succeeds exactly on the legal texts, panics exactly on the texts
cut short after a comma, and otherwise fails; the failure becomes status 500. -/
theorem reads {s : Str} (hs : isAscii s = true) :
    (∀ f, parse s = .ok f ↔ ∃ ps, ForwardedText s ps ∧ AmountsTo ps f) ∧
    (parse s = .panic ↔ ∃ ps, CutShort s ps ∧ NoRepeats ps) ∧
    (∀ t, parse s = .err t → t = 500) := by
  unfold parse
  have ht : ∀ ps, ForwardedText s ps → parseLoop {} s = runPairs {} ps := fun ps h => parseLoop_text h hs
  have hc : ∀ ps, CutShort s ps → parseLoop {} s = (runPairs {} ps).bind fun _ => .panic :=
    fun ps h => parseLoop_cut h hs
  refine ⟨fun f => ⟨?_, ?_⟩, ⟨?_, ?_⟩, ?_⟩
  · intro h
    rcases parseLoop_cases hs {} with ⟨ps, hp⟩ | ⟨ps, hp⟩ | he
    · rw [ht ps hp, amounts_iff] at h
      exact ⟨ps, hp, h⟩
    · rw [hc ps hp] at h
      rcases runPairs_clean ps {} with ⟨f, e⟩ | e <;> rw [e] at h <;> cases h
    · rw [he] at h; cases h
  · rintro ⟨ps, hp, ha⟩
    rw [ht ps hp, amounts_iff]
    exact ha
  · intro h
    rcases parseLoop_cases hs {} with ⟨ps, hp⟩ | ⟨ps, hp⟩ | he
    · rw [ht ps hp] at h
      rcases runPairs_clean ps {} with ⟨f, e⟩ | e <;> rw [e] at h <;> cases h
    · refine ⟨ps, hp, ?_⟩
      rw [← noRepeats_iff]
      rw [hc ps hp] at h
      rcases runPairs_clean ps {} with ⟨f, e⟩ | e
      · exact ⟨f, e⟩
      · rw [e] at h; cases h
    · rw [he] at h; cases h
  · rintro ⟨ps, hp, hr⟩
    rw [← noRepeats_iff] at hr
    obtain ⟨f, e⟩ := hr
    rw [hc ps hp, e]
    rfl
  · intro t h
    rcases parseLoop_cases hs {} with ⟨ps, hp⟩ | ⟨ps, hp⟩ | he
    · rw [ht ps hp] at h
      rcases runPairs_clean ps {} with ⟨f, e⟩ | e <;> rw [e] at h <;> cases h
      rfl
    · rw [hc ps hp] at h
      rcases runPairs_clean ps {} with ⟨f, e⟩ | e <;> rw [e] at h <;> cases h
      rfl
    · rw [he] at h; cases h; rfl

theorem cutShort_comma {s : Str} {ps : List (Str × Str)} (h : CutShort s ps) : ',' ∈ s := by
  induction h <;> simp_all

end Forwarded

/-- **C49**, the part that holds: an ASCII text is read exactly when it is legal, with the meaning of its
parameters; reading panics exactly on texts that are legal up to a comma after a `for` element with fewer
than four characters left; every other text is an error. -/
theorem C49_reads_partial {s : Str} (hs : Ascii s) :
    (∀ f, Forwarded.parse s = .ok f ↔ ∃ ps, ForwardedText s ps ∧ AmountsTo ps f) ∧
    (Forwarded.parse s = .panic ↔ ∃ ps, CutShort s ps ∧ NoRepeats ps) ∧
    (∀ t, Forwarded.parse s = .err t → t = 500) :=
  Forwarded.reads ((spec_ascii_iff _).mp hs)

example : Forwarded.parse s!!"for=a, for=\"b\\\"\";proto=http" = .ok ⟨none, [s!!"a", s!!"b\""], none, some s!!"http"⟩ := by
  decide +kernel

/-- **C49**, the part that holds: an ASCII text without a comma is read without panicking. -/
theorem C49_no_comma_partial {s : Str} (hs : Ascii s) (hc : ',' ∉ s) :
    (∃ f, Forwarded.parse s = .ok f) ∨ Forwarded.parse s = .err 500 := by
  have := Forwarded.reads ((spec_ascii_iff _).mp hs)
  cases h : Forwarded.parse s with
  | ok f => exact .inl ⟨f, rfl⟩
  | err t => rw [this.2.2 t h]; exact .inr rfl
  | panic =>
    obtain ⟨ps, hp, _⟩ := this.2.1.mp h
    exact absurd (Forwarded.cutShort_comma hp) hc

example : Forwarded.parse s!!"By=a;for=b, FOR=\"c\\\"d\";by=e;host=h;x=y" =
    .ok ⟨some s!!"e", [s!!"b", s!!"c\"d"], some s!!"h", none⟩ := by decide +kernel
example : Forwarded.parse s!!"for=b;by=a;by=c" = .err 500 := by decide +kernel

/-- **C49** is violated: a comma after a `for` element with fewer than four more characters panics. -/
theorem C49_violated_short {v w rest : Str} (hv : Token v) (hw : ∀ c ∈ w, c = ' ')
    (hr : ∀ c ∈ rest, TChar c) (hl : rest.length < 4) :
    Forwarded.parse (s!!"for=" ++ v ++ s!!"," ++ w ++ rest) = .panic := by
  have tok : ∀ {t : Str}, (∀ c ∈ t, TChar c) → isAscii t = true := by
    intro t ht
    rw [isAscii_iff]
    intro c hc
    have := Mime.tchar_nat (ht c hc)
    omega
  have ha : isAscii (s!!"for=" ++ v ++ s!!"," ++ w ++ rest) = true := by
    rw [isAscii_append, isAscii_append, isAscii_append, isAscii_append, tok hv.2, tok hr]
    have : isAscii w = true := by
      rw [isAscii_iff]
      intro c hc
      rw [hw c hc]
      decide
    rw [this]
    rfl
  rw [(Forwarded.reads ha).2.1]
  refine ⟨[(s!!"for", v)], ?_, ?_⟩
  · have := CutShort.here (k := s!!"for") (raw := v) (v := v) (w := w) (rest := rest) (by decide : IsFor s!!"for")
      (.inl ⟨rfl, hv⟩) (by intro c hc; rw [hw c hc]; decide) hl
      (by
        intro c hc
        have hm : c ∈ rest := List.mem_of_mem_head? (by rw [hc]; rfl)
        have := Mime.tchar_nat (hr c hm)
        unfold isWs
        simp
        omega)
    simpa using this
  · intro k hk
    simp only [List.mem_cons, List.not_mem_nil, or_false] at hk
    rcases hk with rfl | rfl | rfl <;> simp [valuesOf]

example : Token s!!"192.0.2.43" ∧ (∀ c ∈ s!!" ", c = ' ') ∧ (∀ c ∈ s!!"a", TChar c) ∧ s!!"a".length < 4 := by
  refine ⟨⟨by decide, fun c hc => ?_⟩, by decide, fun c hc => ?_, by decide⟩
  all_goals
    rw [← Mime.isToken_iff]
    revert c
    decide

/-- **C49** is violated: a multi-byte character across the fourth byte panics, whatever follows. -/
theorem C49_violated_multibyte {a : Str} {c : Char} (rest : Str) (ha : Ascii a) (hl : a.length < 4)
    (hc : 4 < a.length + utf8Len c) : Forwarded.parse (a ++ c :: rest) = .panic := by
  have key : ∀ (n : Nat) (a : Str), isAscii a = true → a.length < n → n < a.length + utf8Len c →
      splitAtByte n (a ++ c :: rest) = .panic := by
    intro n a
    induction a generalizing n with
    | nil =>
      intro _ h1 h2
      cases n with
      | zero => cases h1
      | succ n =>
        simp only [List.nil_append]
        unfold splitAtByte
        rw [if_neg (by simp at h2; omega)]
    | cons x a ih =>
      intro ha h1 h2
      rw [isAscii_cons, Bool.and_eq_true] at ha
      cases n with
      | zero => cases h1
      | succ n =>
        simp only [List.cons_append]
        unfold splitAtByte
        simp only [List.length_cons] at h1 h2
        rw [utf8Len_ascii ha.1, if_pos (by omega), Nat.add_sub_cancel, ih n ha.2 (by omega) (by omega)]
        rfl
  have hlen : ∀ a : Str, byteLen (a ++ c :: rest) = byteLen a + utf8Len c + byteLen rest := by
    intro a
    simp [byteLen, Nat.add_assoc]
  unfold Forwarded.parse Forwarded.parseLoop
  have e : Forwarded.startsWithIgnoreCase s!!"for=" (a ++ c :: rest) = .panic := by
    unfold Forwarded.startsWithIgnoreCase
    rw [Forwarded.byteLen_for, hlen, byteLen_ascii ((spec_ascii_iff _).mp ha), if_pos (by omega),
      key 4 a ((spec_ascii_iff _).mp ha) hl hc]
    rfl
  rw [if_neg (by simp), e]

example : Ascii s!!"by=" ∧ s!!"by=".length < 4 ∧ 4 < s!!"by=".length + utf8Len 'é' := by decide

/-- **C49** is violated: a malformed text is not reported as a client error; the error becomes status
500 in an `http_types::Result`. -/
theorem C49_violated_status : ∃ s, Ascii s ∧ ',' ∉ s ∧ Forwarded.parse s = .err 500 :=
  ⟨s!!"for", by decide, by decide, by decide +kernel⟩

namespace Forwarded

/-! ### Writing and reading back -/

theorem quotedText_length {e v : Str} (h : QuotedText e v) : v.length ≤ e.length := by
  induction h with
  | nil => simp
  | plain _ _ ih => simp; omega
  | pair _ _ ih => simp; omega

theorem quoted_shift {e v : Str} (h : QuotedText e v) : ∀ {p r x : Str}, p ≠ [] → ';' ∉ p →
    p ++ (e ++ '"' :: r) ≠ v ++ ';' :: x := by
  induction h with
  | nil =>
    intro p r x hp hs he
    cases p with
    | nil => exact hp rfl
    | cons a p =>
      simp at he
      exact hs (by simp [he.1])
  | @plain c s v _ _ ih =>
    intro p r x hp hs he
    cases p with
    | nil => exact hp rfl
    | cons a p =>
      simp only [List.cons_append, List.cons.injEq] at he
      obtain ⟨rfl, he⟩ := he
      refine ih (p := p ++ [a]) (r := r) (x := x) (by simp) ?_ (by simpa using he)
      simp only [List.mem_append, List.mem_cons, List.not_mem_nil, or_false] at hs ⊢
      tauto
  | @pair c s v _ _ ih =>
    intro p r x hp hs he
    cases p with
    | nil => exact hp rfl
    | cons a p =>
      simp only [List.cons_append, List.cons.injEq] at he
      obtain ⟨rfl, he⟩ := he
      refine ih (p := p ++ ['\\', a]) (r := r) (x := x) (by simp) ?_ (by simpa using he)
      have : ';' ≠ '\\' := by decide
      simp only [List.mem_append, List.mem_cons, List.not_mem_nil, or_false] at hs ⊢
      tauto

/-- The end of a written value: the end of the text, or a semicolon. -/
def Ends (z : Str) : Prop := z = [] ∨ ∃ x, z = ';' :: x

theorem ends_head {z : Str} (h : Ends z) : ∀ c, z.head? = some c → ¬ TChar c := by
  rcases h with rfl | ⟨x, rfl⟩
  · intro c hc; cases hc
  · intro c hc; cases hc; exact sep_not_tchar _ (by simp)

/-- A raw value reads as itself exactly when it is a token. -/
theorem raw_value {x z raw v r : Str} (hz : Ends z) (he : x ++ z = raw ++ r) (hp : ParamText raw v)
    (hr : Token raw → ∀ c, r.head? = some c → ¬ TChar c) (hv : v = x) : Token x ∧ raw = x ∧ r = z := by
  subst hv
  rcases hp with ⟨rfl, ht⟩ | ⟨e, rfl, hq⟩
  · exact ⟨ht, rfl, (List.append_cancel_left he).symm⟩
  · exfalso
    rcases hz with rfl | ⟨y, rfl⟩
    · have := congrArg List.length he
      have h2 := quotedText_length hq
      simp at this
      omega
    · refine quoted_shift hq (p := ['"']) (r := r) (x := y) (by simp) (by decide) ?_
      rw [he]
      simp

theorem parseLoop_mono {f f' : Forwarded} {s : Str} (hs : isAscii s = true) (h : parseLoop f s = .ok f') :
    (∃ l, f'.forwardedFor = f.forwardedFor ++ l) ∧ (∀ v, f.by' = some v → f'.by' = some v) ∧
    (∀ v, f.host = some v → f'.host = some v) ∧ (∀ v, f.proto = some v → f'.proto = some v) := by
  have key : ∀ (o o' : Option Str) (l : List Str), o.toList ++ l = o'.toList → ∀ v, o = some v → o' = some v := by
    intro o o' l he v hv
    subst hv
    cases o' with
    | none => cases he
    | some w => simp at he; rw [he.1]
  rcases parseLoop_cases hs f with ⟨ps, hp⟩ | ⟨ps, hp⟩ | he
  · rw [parseLoop_text hp hs, runPairs_iff] at h
    exact ⟨⟨_, h.1⟩, key _ _ _ h.2.1, key _ _ _ h.2.2.1, key _ _ _ h.2.2.2⟩
  · rw [parseLoop_cut hp hs] at h
    rcases runPairs_clean ps f with ⟨g, e⟩ | e <;> rw [e] at h <;> cases h
  · rw [he] at h; cases h

theorem isAscii_stripSemi {r : Str} (h : isAscii r = true) : isAscii (stripSemi r) = true := by
  by_cases hr : ∃ x, r = ';' :: x
  · obtain ⟨x, rfl⟩ := hr
    rw [stripSemi_semi]
    rw [isAscii_cons, Bool.and_eq_true] at h
    exact h.2
  · rw [stripSemi_other]
    · exact h
    · intro c hc e
      subst e
      cases r with
      | nil => cases hc
      | cons d r => cases hc; exact hr ⟨r, rfl⟩

/-- A written `by`, `host` or `proto` parameter. -/
theorem write_pair {g f : Forwarded} {k x z : Str} {set : Str → Forwarded} {get : Forwarded → Option Str}
    (hs : isAscii (k ++ '=' :: (x ++ z)) = true) (hk : Token k) (hf : ¬ IsFor k) (hz : Ends z)
    (hstore : ∀ v, store g k v = .ok (set v)) (hset : ∀ v, get (set v) = some v)
    (hmono : ∀ (g f : Forwarded) (s : Str), isAscii s = true → parseLoop g s = .ok f →
      ∀ v, get g = some v → get f = some v) (hx : get f = some x) :
    parseLoop g (k ++ '=' :: (x ++ z)) = .ok f ↔ Token x ∧ parseLoop (set x) (stripSemi z) = .ok f := by
  constructor
  · intro h
    have hxz := isAscii_right_cons hs
    rcases parseValue_cases hxz with ⟨raw, v, r, h1, h2, h3, h4⟩ | ⟨y, h4⟩
    · rw [h1] at hs h hxz
      rw [parseLoop_other hs hk hf h2 h3, hstore] at h
      simp only [Res.bind_ok] at h
      have hr := isAscii_stripSemi (isAscii_of_append_right hxz)
      have := hmono _ _ _ hr h v (hset v)
      rw [hx] at this
      cases this
      obtain ⟨a, rfl, rfl⟩ := raw_value hz h1 h2 h3 rfl
      exact ⟨a, h⟩
    · exfalso
      rw [parseLoop_pair hs (not_startsFor hk hf) (by simp)] at h
      unfold parsePair at h
      have : ∀ c, ('=' :: (x ++ z)).head? = some c → ¬ TChar c := by
        intro c hc; cases hc; exact sep_not_tchar _ (by simp)
      rw [parseToken_of hk this] at h
      simp only at h
      rw [h4] at h
      cases h
  · rintro ⟨ht, h⟩
    rw [parseLoop_other hs hk hf (.inl ⟨rfl, ht⟩) (fun _ => ends_head hz), hstore]
    exact h

/-- Quoting, as `format_value` does it. -/
def quoteBody (v : Str) : Str := v.flatMap (fun ch => if ch = '\\' ∨ ch = '"' then ['\\', ch] else [ch])

open Classical in
theorem formatValue_eq (v : Str) : formatValue v = if Token v ∨ v = [] then v else '"' :: (quoteBody v ++ ['"']) := by
  unfold formatValue
  rcases parseToken_cases v with ⟨t, r, h1, h2, h3, h4⟩ | ⟨h1, h2⟩
  · rw [h4]
    cases r with
    | nil =>
      simp at h1
      subst h1
      rw [if_pos (.inl h2)]
    | cons c r =>
      rw [if_neg]
      · rfl
      · rintro (h | h)
        · exact h3 c rfl (h.2 c (by rw [h1]; simp))
        · rw [h1] at h; simp at h
  · rw [h1]
    cases v with
    | nil => rw [if_pos (.inr rfl)]
    | cons c v =>
      rw [if_neg]
      · rfl
      · rintro (h | h)
        · exact h2 c rfl (h.2 c (by simp))
        · cases h

/-- The characters that survive quoting. -/
def Survives (c : Char) : Prop := QdText c ∨ c = '"' ∨ c = '\\'

theorem not_qd_quote : ¬ QdText '"' := by rintro (h | h | h | h) <;> revert h <;> decide
theorem not_qd_backslash : ¬ QdText '\\' := by rintro (h | h | h | h) <;> revert h <;> decide

theorem quoteBody_quoted {v : Str} (h : ∀ c ∈ v, Survives c) : QuotedText (quoteBody v) v := by
  induction v with
  | nil => exact .nil
  | cons c v ih =>
    have ih := ih (fun d hd => h d (by simp [hd]))
    unfold quoteBody at ih ⊢
    rw [List.flatMap_cons]
    by_cases hc : c = '\\' ∨ c = '"'
    · rw [if_pos hc]
      refine .pair ?_ ih
      rcases hc with rfl | rfl <;> exact .inr (by decide)
    · rw [if_neg hc]
      refine .plain ?_ ih
      rcases h c (by simp) with h | h | h
      · exact h
      · exact absurd (.inr h) hc
      · exact absurd (.inl h) hc

theorem quoteBody_survives {v : Str} : ∀ {e r r' : Str}, QuotedText e v → e ++ '"' :: r = quoteBody v ++ '"' :: r' →
    (∀ c ∈ v, Survives c) ∧ r = r' := by
  induction v with
  | nil =>
    intro e r r' h he
    cases h
    simp [quoteBody] at he
    exact ⟨by simp, he⟩
  | cons c v ih =>
    intro e r r' h he
    have eq : quoteBody (c :: v) = (if c = '\\' ∨ c = '"' then ['\\', c] else [c]) ++ quoteBody v := by
      unfold quoteBody
      rw [List.flatMap_cons]
    rw [eq] at he
    by_cases hc : c = '\\' ∨ c = '"'
    · rw [if_pos hc] at he
      cases h with
      | plain hq _ =>
        rcases hc with rfl | rfl
        · exact absurd hq not_qd_backslash
        · exact absurd hq not_qd_quote
      | pair _ hq =>
        simp only [List.cons_append, List.nil_append, List.cons.injEq, true_and] at he
        obtain ⟨a, b⟩ := ih hq he
        refine ⟨?_, b⟩
        intro d hd
        rcases List.mem_cons.mp hd with rfl | hd
        · rcases hc with h | h
          · exact .inr (.inr h)
          · exact .inr (.inl h)
        · exact a d hd
    · rw [if_neg hc] at he
      cases h with
      | plain hq hq' =>
        simp only [List.cons_append, List.nil_append, List.cons.injEq, true_and] at he
        obtain ⟨a, b⟩ := ih hq' he
        refine ⟨?_, b⟩
        intro d hd
        rcases List.mem_cons.mp hd with rfl | hd
        · exact .inl hq
        · exact a d hd
      | pair _ hq =>
        simp only [List.cons_append, List.nil_append, List.cons.injEq] at he
        exact absurd (.inl he.1.symm) hc

/-- The end of a written `for` value: the end of the text, a semicolon or a comma. -/
def ForEnds (z : Str) : Prop := z = [] ∨ (∃ x, z = ';' :: x) ∨ ∃ x, z = ',' :: x

theorem forEnds_head {z : Str} (h : ForEnds z) : ∀ c, z.head? = some c → ¬ TChar c := by
  rcases h with rfl | ⟨x, rfl⟩ | ⟨x, rfl⟩
  · intro c hc; cases hc
  · intro c hc; cases hc; exact sep_not_tchar _ (by simp)
  · intro c hc; cases hc; exact sep_not_tchar _ (by simp)

theorem forEnds_no_value {z : Str} (h : ForEnds z) (hs : isAscii z = true) : ∃ x, parseValue z = .ok (none, x) := by
  rcases parseValue_cases hs with ⟨raw, v, r, h1, h2, h3, h4⟩ | h
  · exfalso
    have hh := forEnds_head h
    rcases h2 with ⟨rfl, ht⟩ | ⟨e, rfl, _⟩
    · obtain ⟨c, t, hc, htc⟩ := token_head (r := r) ht
      rw [← h1] at hc
      exact hh c (by rw [hc]; rfl) htc
    · rcases h with rfl | ⟨x, rfl⟩ | ⟨x, rfl⟩ <;> simp at h1
  · exact h

theorem afterFor_mono {f f' : Forwarded} {r : Str} (hs : isAscii r = true) (h : afterFor f r = .ok f') :
    ∃ l, f'.forwardedFor = f.forwardedFor ++ l := by
  unfold afterFor at h
  split at h
  · next r =>
    rw [isAscii_cons, Bool.and_eq_true] at hs
    split at h
    · exact (parseLoop_mono (isAscii_trimStart hs.2) h).1
    · split at h <;> cases h
  · rw [isAscii_cons, Bool.and_eq_true] at hs
    exact (parseLoop_mono hs.2 h).1
  · cases h; exact ⟨[], by simp⟩
  · cases h

theorem write_for {g f : Forwarded} {v z : Str} {more : List Str}
    (hs : isAscii (s!!"for" ++ '=' :: (formatValue v ++ z)) = true) (hz : ForEnds z)
    (hv : f.forwardedFor = g.forwardedFor ++ v :: more) :
    parseLoop g (s!!"for" ++ '=' :: (formatValue v ++ z)) = .ok f ↔
      ForValue v ∧ afterFor (push g v) z = .ok f := by
  have hFor : IsFor s!!"for" := by decide
  have hxz := isAscii_right_cons hs
  constructor
  · intro h
    rw [parseLoop_for hs hFor] at h
    rcases parseValue_cases hxz with ⟨raw, v', r, h1, h2, h3, h4⟩ | ⟨y, h4⟩
    · rw [h4] at h
      simp only [Res.bind_ok] at h
      have hr : isAscii r = true := by
        rw [h1] at hxz
        exact isAscii_of_append_right hxz
      obtain ⟨l, hl⟩ := afterFor_mono hr h
      have hvv : v' = v := by
        rw [hv] at hl
        simp [push] at hl
        exact hl.1.symm
      subst hvv
      rw [formatValue_eq] at h1
      by_cases ht : Token v' ∨ v' = []
      · rw [if_pos ht] at h1
        rcases ht with ht | rfl
        · rcases h2 with ⟨rfl, _⟩ | ⟨e, rfl, he⟩
          · cases (List.append_cancel_left h1)
            exact ⟨⟨ht.1, .inl ht⟩, h⟩
          · exfalso
            obtain ⟨hne, hall⟩ := ht
            cases v' with
            | nil => exact hne rfl
            | cons c v' =>
              simp only [List.cons_append, List.cons.injEq] at h1
              obtain ⟨rfl, _⟩ := h1
              exact not_token_quote _ ⟨by simp, hall⟩
        · exfalso
          rcases h2 with ⟨_, h2⟩ | ⟨e, rfl, he⟩
          · exact h2.1 rfl
          · rcases hz with rfl | ⟨x, rfl⟩ | ⟨x, rfl⟩ <;> simp at h1
      · rw [if_neg ht] at h1
        have hne : v' ≠ [] := fun e => ht (.inr e)
        rcases h2 with ⟨rfl, h2⟩ | ⟨e, rfl, he⟩
        · exact absurd (.inl h2) ht
        · have h1' : e ++ '"' :: r = quoteBody v' ++ '"' :: z := by
            have : '"' :: (quoteBody v' ++ ['"']) ++ z = '"' :: (quoteBody v' ++ '"' :: z) := by simp
            rw [this] at h1
            have : '"' :: (e ++ ['"']) ++ r = '"' :: (e ++ '"' :: r) := by simp
            rw [this] at h1
            simp only [List.cons.injEq, true_and] at h1
            exact h1.symm
          obtain ⟨a, rfl⟩ := quoteBody_survives he h1'
          exact ⟨⟨hne, .inr a⟩, h⟩
    · rw [h4] at h; cases h
  · rintro ⟨⟨hne, hfv⟩, h⟩
    have hp : ParamText (formatValue v) v := by
      rw [formatValue_eq]
      by_cases ht : Token v
      · rw [if_pos (.inl ht)]; exact .inl ⟨rfl, ht⟩
      · rw [if_neg (by rintro (h | h); exact ht h; exact hne h)]
        refine .inr ⟨_, rfl, quoteBody_quoted ?_⟩
        rcases hfv with h | h
        · exact absurd h ht
        · exact h
    rw [parseLoop_for_of hs hFor hp (fun _ => forEnds_head hz)]
    exact h

/-- The `for` part of a written value. -/
def forPart (vs : List Str) : Str := join s!!", " (vs.map fun v => s!!"for=" ++ formatValue v)

/-- The text after the `for` part. -/
def tailPart (host proto : Option Str) : Str :=
  match host, proto with
  | none, none => []
  | some h, none => s!!";host=" ++ h
  | none, some p => s!!";proto=" ++ p
  | some h, some p => s!!";host=" ++ h ++ s!!";proto=" ++ p

theorem headerValue_eq (f : Forwarded) : headerValue f =
    (match f.by' with | some b => s!!"by=" ++ b ++ s!!";" | none => []) ++
      (forPart f.forwardedFor ++ tailPart f.host f.proto) := by
  unfold headerValue forPart tailPart
  have dl : ∀ (a : Str) (c : Char), (a ++ [c]).dropLast = a := by intro a c; simp
  cases hb : f.by' <;> cases hh : f.host <;> cases hp : f.proto <;>
    simp only [List.append_assoc, List.nil_append, List.append_nil] <;>
    (repeat rw [← List.append_assoc]) <;> (try rw [dl]) <;>
    simp

theorem tail_ends (h p : Option Str) : Ends (tailPart h p) := by
  cases h <;> cases p
  · exact .inl rfl
  · exact .inr ⟨_, rfl⟩
  · exact .inr ⟨_, rfl⟩
  · exact .inr ⟨_, rfl⟩

theorem write_tail {g f : Forwarded} (hs : isAscii (tailPart f.host f.proto) = true)
    (hgh : g.host = none) (hgp : g.proto = none) (hb : f.by' = g.by') (hfor : f.forwardedFor = g.forwardedFor) :
    afterFor g (tailPart f.host f.proto) = .ok f ↔ (∀ v ∈ f.host, Token v) ∧ (∀ v ∈ f.proto, Token v) := by
  have tokh : Token s!!"host" := ⟨by decide, fun c hc => by rw [← Mime.isToken_iff]; revert c; decide⟩
  have tokp : Token s!!"proto" := ⟨by decide, fun c hc => by rw [← Mime.isToken_iff]; revert c; decide⟩
  have proto_step : ∀ (g' : Forwarded) (p : Str), isAscii (s!!"proto" ++ '=' :: (p ++ [])) = true →
      g'.proto = none → f.proto = some p →
      (parseLoop g' (s!!"proto" ++ '=' :: (p ++ [])) = .ok f ↔ Token p ∧ ({ g' with proto := some p } = f)) := by
    intro g' p ha h1 h2
    rw [write_pair (set := fun v => { g' with proto := some v }) (get := fun f => f.proto) ha tokp not_isFor_proto
      (.inl rfl) (by intro v; simp [store, h1]) (by simp) (fun g f s hs h => (parseLoop_mono hs h).2.2.2) h2]
    rw [stripSemi_other (by simp), parseLoop_nil, Res.ok.injEq]
  obtain ⟨fb, ff, fh, fp⟩ := f
  obtain ⟨gb, gf, gh, gp⟩ := g
  simp only at hgh hgp hb hfor
  obtain rfl := hgh
  obtain rfl := hgp
  obtain rfl := hb.symm
  obtain rfl := hfor.symm
  unfold tailPart at hs ⊢
  cases fh with
  | none =>
    cases fp with
    | none => simp [afterFor]
    | some p =>
      have ha : isAscii (s!!"proto" ++ '=' :: (p ++ [])) = true := by
        rw [List.append_nil]
        rw [isAscii_append, Bool.and_eq_true] at hs
        rw [isAscii_append, Bool.and_eq_true]
        refine ⟨by decide, ?_⟩
        rw [isAscii_cons, hs.2]
        decide
      have := proto_step ⟨gb, gf, none, none⟩ p ha rfl rfl
      simp only [List.append_nil] at this
      show parseLoop _ (s!!"proto" ++ '=' :: p) = _ ↔ _
      rw [this]
      simp
  | some h =>
    cases fp with
    | none =>
      have ha : isAscii (s!!"host" ++ '=' :: (h ++ [])) = true := by
        rw [List.append_nil]
        rw [isAscii_append, Bool.and_eq_true] at hs
        rw [isAscii_append, Bool.and_eq_true]
        refine ⟨by decide, ?_⟩
        rw [isAscii_cons, hs.2]
        decide
      have := write_pair (g := ⟨gb, gf, none, none⟩) (f := ⟨gb, gf, some h, none⟩)
        (set := fun v => ⟨gb, gf, some v, none⟩) (get := fun f => f.host) ha tokh not_isFor_host
        (.inl rfl) (by intro v; simp [store]) (by simp) (fun g f s hs h => (parseLoop_mono hs h).2.2.1) rfl
      rw [stripSemi_other (by simp), parseLoop_nil] at this
      simp only [List.append_nil] at this
      show parseLoop _ (s!!"host" ++ '=' :: h) = _ ↔ _
      rw [this]
      simp
    | some p =>
      have e : s!!";host=" ++ h ++ s!!";proto=" ++ p = ';' :: (s!!"host" ++ '=' :: (h ++ (';' :: (s!!"proto" ++ '=' :: p)))) := by
        simp
      simp only [e] at hs ⊢
      rw [isAscii_cons, Bool.and_eq_true] at hs
      have := write_pair (g := ⟨gb, gf, none, none⟩) (f := ⟨gb, gf, some h, some p⟩)
        (set := fun v => ⟨gb, gf, some v, none⟩) (get := fun f => f.host) hs.2 tokh not_isFor_host
        (.inr ⟨_, rfl⟩) (by intro v; simp [store]) (by simp) (fun g f s hs h => (parseLoop_mono hs h).2.2.1) rfl
      rw [stripSemi_semi] at this
      show parseLoop _ (s!!"host" ++ '=' :: (h ++ (';' :: (s!!"proto" ++ '=' :: p)))) = _ ↔ _
      rw [this]
      have hp : isAscii (s!!"proto" ++ '=' :: (p ++ [])) = true := by
        rw [List.append_nil]
        exact isAscii_right_cons (isAscii_right_cons hs.2)
      have := proto_step ⟨gb, gf, some h, none⟩ p hp rfl rfl
      simp only [List.append_nil] at this
      rw [this]
      simp

theorem forPart_cons (v : Str) (vs : List Str) :
    forPart (v :: vs) = s!!"for" ++ '=' :: (formatValue v ++ (if vs = [] then [] else s!!", " ++ forPart vs)) := by
  unfold forPart
  cases vs with
  | nil => simp [join]
  | cons w vs => simp [join]

theorem write_fors {f : Forwarded} (vs : List Str) : ∀ {g : Forwarded}, vs ≠ [] →
    isAscii (forPart vs ++ tailPart f.host f.proto) = true → g.host = none → g.proto = none → f.by' = g.by' →
    f.forwardedFor = g.forwardedFor ++ vs →
    (parseLoop g (forPart vs ++ tailPart f.host f.proto) = .ok f ↔
      (∀ v ∈ vs, ForValue v) ∧ (∀ v ∈ f.host, Token v) ∧ (∀ v ∈ f.proto, Token v)) := by
  induction vs with
  | nil => intro g h; exact absurd rfl h
  | cons v vs ih =>
    intro g _ hs h1 h2 h3 h4
    rw [forPart_cons] at hs ⊢
    have e : s!!"for" ++ '=' :: (formatValue v ++ (if vs = [] then [] else s!!", " ++ forPart vs)) ++
        tailPart f.host f.proto = s!!"for" ++ '=' :: (formatValue v ++ ((if vs = [] then [] else s!!", " ++ forPart vs) ++
        tailPart f.host f.proto)) := by simp
    rw [e] at hs ⊢
    have hz : ForEnds ((if vs = [] then [] else s!!", " ++ forPart vs) ++ tailPart f.host f.proto) := by
      by_cases hv : vs = []
      · rw [if_pos hv]
        rcases tail_ends f.host f.proto with h | h
        · exact .inl h
        · exact .inr (.inl h)
      · rw [if_neg hv]
        exact .inr (.inr ⟨_, rfl⟩)
    rw [write_for hs hz h4]
    have hsz := isAscii_of_append_right (isAscii_right_cons hs)
    by_cases hv : vs = []
    · subst hv
      rw [if_pos rfl, List.nil_append] at hsz ⊢
      rw [write_tail (g := push g v) hsz h1 h2 h3 (by rw [h4]; rfl)]
      simp
    · rw [if_neg hv] at hsz ⊢
      have hst : StartsFor (forPart vs ++ tailPart f.host f.proto) := by
        cases vs with
        | nil => exact absurd rfl hv
        | cons w ws =>
          rw [forPart_cons]
          exact ⟨s!!"for", _, by rw [List.append_assoc]; rfl, by decide⟩
      have htr : trimStart (' ' :: (forPart vs ++ tailPart f.host f.proto)) = forPart vs ++ tailPart f.host f.proto :=
        trimStart_startsFor (w := s!!" ") (by decide) hst
      have : afterFor (push g v) (s!!", " ++ forPart vs ++ tailPart f.host f.proto) =
          parseLoop (push g v) (forPart vs ++ tailPart f.host f.proto) := by
        show afterFor (push g v) (',' :: (' ' :: (forPart vs ++ tailPart f.host f.proto))) = _
        unfold afterFor
        simp only
        rw [htr, if_pos hst]
      rw [this, ih (g := push g v) hv (by
        have : isAscii (s!!", " ++ (forPart vs ++ tailPart f.host f.proto)) = true := by
          rw [← List.append_assoc]; exact hsz
        exact isAscii_of_append_right this) h1 h2 h3 (by rw [h4]; simp [push])]
      simp
      tauto

/-- Reading what was written, for ASCII text. -/
theorem parse_headerValue {f : Forwarded} (hs : isAscii (headerValue f) = true) :
    parse (headerValue f) = .ok f ↔ ForwardedWF f := by
  have rest : ∀ (g : Forwarded), isAscii (forPart f.forwardedFor ++ tailPart f.host f.proto) = true →
      g.host = none → g.proto = none → f.by' = g.by' → g.forwardedFor = [] →
      (parseLoop g (forPart f.forwardedFor ++ tailPart f.host f.proto) = .ok f ↔
        (∀ v ∈ f.forwardedFor, ForValue v) ∧ (∀ v ∈ f.host, Token v) ∧ (∀ v ∈ f.proto, Token v) ∧
        (f.forwardedFor = [] → f.host = none ∧ f.proto = none)) := by
    intro g ha h1 h2 h3 h4
    by_cases hv : f.forwardedFor = []
    · rw [hv]
      have e : forPart [] = [] := rfl
      rw [e, List.nil_append]
      constructor
      · intro h
        have : f.host = none ∧ f.proto = none := by
          rcases tail_ends f.host f.proto with e | ⟨x, e⟩
          · cases hh : f.host <;> cases hp : f.proto <;> rw [hh, hp] at e <;> simp_all [tailPart]
          · exfalso
            rw [e] at h
            rw [hv, e, show forPart [] = [] from rfl, List.nil_append] at ha
            rw [parseLoop_pair ha (by
              rintro ⟨k, r, hk, hf⟩
              have := isFor_length hf
              cases k with
              | nil => simp at this
              | cons c k =>
                have hk' : ';' = c := by
                  have := congrArg List.head? hk
                  simpa using this
                subst hk'
                have := (isFor_token hf).2 ';' (by simp)
                exact sep_not_tchar ';' (by simp) this) (by simp)] at h
            unfold parsePair at h
            rcases parseToken_cases (';' :: x) with ⟨t, r, e1, e2, _, _⟩ | ⟨e1, _⟩
            · obtain ⟨c, t', e3, e4⟩ := token_head (r := r) e2
              rw [← e1] at e3
              cases e3
              exact sep_not_tchar ';' (by simp) e4
            · rw [e1] at h; cases h
        rw [this.1, this.2]
        simp
      · rintro ⟨_, _, _, h⟩
        obtain ⟨hh, hp⟩ := h rfl
        rw [hh, hp]
        show parseLoop g [] = _
        rw [parseLoop_nil]
        obtain ⟨a, b, c, d⟩ := f
        obtain ⟨a', b', c', d'⟩ := g
        simp_all
    · rw [write_fors f.forwardedFor hv ha h1 h2 h3 (by rw [h4]; rfl)]
      constructor
      · rintro ⟨a, b, c⟩; exact ⟨a, b, c, fun e => absurd e hv⟩
      · rintro ⟨a, b, c, _⟩; exact ⟨a, b, c⟩
  unfold parse
  rw [headerValue_eq] at hs ⊢
  unfold ForwardedWF
  cases hb : f.by' with
  | none =>
    rw [hb] at hs
    simp only [List.nil_append] at hs ⊢
    rw [rest {} hs rfl rfl hb rfl]
    simp
  | some b =>
    rw [hb] at hs
    have e : s!!"by=" ++ b ++ s!!";" ++ (forPart f.forwardedFor ++ tailPart f.host f.proto) =
        s!!"by" ++ '=' :: (b ++ ';' :: (forPart f.forwardedFor ++ tailPart f.host f.proto)) := by simp
    simp only [e] at hs ⊢
    have tok : Token s!!"by" := ⟨by decide, fun c hc => by rw [← Mime.isToken_iff]; revert c; decide⟩
    rw [write_pair (set := fun v => { by' := some v }) (get := fun f => f.by') hs tok not_isFor_by
      (.inr ⟨_, rfl⟩) (by intro v; simp [store]) (by simp) (fun g f s hs h => (parseLoop_mono hs h).2.1) hb,
      stripSemi_semi, rest _ (isAscii_right_cons (isAscii_right_cons hs)) rfl rfl hb rfl]
    simp
    tauto

theorem ascii_value {f : Forwarded} (h : ForwardedWF f) : isAscii (headerValue f) = true := by
  obtain ⟨h1, h2, h3, h4, _⟩ := h
  have tok : ∀ {t : Str}, Token t → isAscii t = true := by
    intro t ht
    rw [isAscii_iff]
    intro c hc
    have := Mime.tchar_nat (ht.2 c hc)
    omega
  have surv : ∀ {c : Char}, Survives c → isAsciiC c = true := by
    intro c h
    unfold isAsciiC
    rw [decide_eq_true_eq]
    rcases h with h | rfl | rfl
    · rcases h with rfl | rfl | h | h
      · decide
      · decide
      · omega
      · omega
    · decide
    · decide
  have body : ∀ {v : Str}, (∀ c ∈ v, Survives c) → isAscii (quoteBody v) = true := by
    intro v hv
    unfold isAscii quoteBody
    rw [List.all_eq_true]
    intro c hc
    rw [List.mem_flatMap] at hc
    obtain ⟨d, hd, hc⟩ := hc
    split at hc
    · simp at hc
      rcases hc with rfl | rfl
      · decide
      · exact surv (hv c hd)
    · simp at hc
      subst hc
      exact surv (hv c hd)
  have fmt : ∀ {v : Str}, ForValue v → isAscii (formatValue v) = true := by
    intro v hv
    rw [formatValue_eq]
    by_cases ht : Token v
    · rw [if_pos (.inl ht)]; exact tok ht
    · rw [if_neg (by rintro (h | h); exact ht h; exact hv.1 h)]
      rcases hv.2 with h | h
      · exact absurd h ht
      · rw [isAscii_cons, isAscii_append, body h]
        decide
  have fors : ∀ vs : List Str, (∀ v ∈ vs, ForValue v) → isAscii (forPart vs) = true := by
    intro vs
    induction vs with
    | nil => intro _; rfl
    | cons v vs ih =>
      intro hv
      have := ih (fun w hw => hv w (by simp [hw]))
      rw [forPart_cons, isAscii_append, Bool.and_eq_true]
      refine ⟨by decide, ?_⟩
      rw [isAscii_cons, isAscii_append, fmt (hv v (by simp))]
      split
      · decide
      · rw [isAscii_append, this]
        decide
  rw [headerValue_eq, isAscii_append, isAscii_append, fors _ h1]
  have t : isAscii (tailPart f.host f.proto) = true := by
    unfold tailPart
    cases hh : f.host <;> cases hp : f.proto
    · rfl
    · rw [isAscii_append, tok (h4 _ hp)]; rfl
    · rw [isAscii_append, tok (h3 _ hh)]; rfl
    · rw [isAscii_append, isAscii_append, isAscii_append, tok (h3 _ hh), tok (h4 _ hp)]; rfl
  rw [t]
  cases hb : f.by' with
  | none => rfl
  | some b =>
    simp only
    rw [isAscii_append, isAscii_append, tok (h2 _ hb)]
    rfl

end Forwarded

/-- **C48**, exactly when it holds: a `Forwarded` value round-trips through a header collection if and only
if `by`, `host` and `proto` are tokens, each `for` value is a token or a non-empty text of characters that
can be quoted (not `!`), and there is some `for` value unless both `host` and `proto` are missing. -/
theorem C48_round_trip_partial (v6 : Str → Option Str) (f : Forwarded) :
    RoundTrips s!!"forwarded" (.ok f.headerValue) (Forwarded.fromHeaders v6) f ↔ ForwardedWF f := by
  have hread : ∀ h : Headers, h.get s!!"forwarded" = some [f.headerValue] →
      Forwarded.fromHeaders v6 h = (Forwarded.parse f.headerValue).map some := by
    intro h hg
    unfold Forwarded.fromHeaders Forwarded.fromForwardedHeader Forwarded.NAME
    rw [hg]
    simp only [HeaderValues.first, List.head?_cons, Res.unwrap_some, Res.bind_ok]
    cases Forwarded.parse f.headerValue <;> rfl
  constructor
  · intro h
    obtain ⟨h', v, h1, h2, h3, h4⟩ := h []
    rw [applyHeader_ok] at h1
    cases h1
    have hv := h3 s!!"forwarded"
    rw [if_pos rfl, get_set_self] at hv
    simp only [Option.some.injEq, List.cons.injEq, and_true] at hv
    subst hv
    rw [hread _ (get_set_self _ _ _)] at h4
    rw [← Forwarded.parse_headerValue (isAscii_iff.mpr h2)]
    cases hp : Forwarded.parse f.headerValue with
    | ok g => rw [hp] at h4; cases h4; rfl
    | err t => rw [hp] at h4; cases h4
    | panic => rw [hp] at h4; cases h4
  · intro h
    have ha := Forwarded.ascii_value h
    refine roundTrips_of f.headerValue rfl ha ?_
    intro hd hg
    rw [hread hd hg, (Forwarded.parse_headerValue ha).mpr h]
    rfl

/-- The hypotheses of C48 are met by values with every field, quoting and escapes. -/
example : ForwardedWF ⟨some s!!"proxy.com", [s!!"client", s!!"[::1]:80", s!!"a \" \\"], some s!!"h", some s!!"https"⟩ := by
  refine ⟨?_, ?_, ?_, ?_, by simp⟩
  · intro v hv
    simp only [List.mem_cons, List.not_mem_nil, or_false] at hv
    have q : ∀ v : Str, v ≠ [] → (∀ c ∈ v, c = ' ' ∨ (35 ≤ c.toNat ∧ c.toNat ≤ 126 ∧ c ≠ '\\') ∨ c = '"' ∨ c = '\\') →
        ForValue v := by
      intro v hn h
      refine ⟨hn, .inr fun c hc => ?_⟩
      rcases h c hc with h | h | h
      · exact .inl (.inr (.inl h))
      · exact .inl (.inr (.inr (.inr h)))
      · exact .inr h
    rcases hv with rfl | rfl | rfl <;> exact q _ (by decide) (by decide)
  all_goals
    intro v hv
    cases hv
    refine ⟨by decide, fun c hc => ?_⟩
    rw [← Mime.isToken_iff]
    revert c
    decide

example : Forwarded.headerValue ⟨some s!!"p", [s!!"c", s!!"[::1]"], some s!!"h", some s!!"https"⟩ =
    s!!"by=p;for=c, for=\"[::1]\";host=h;proto=https" := by decide +kernel

/-- **C48** is violated: with a host and no `for` value the written text cannot be read. -/
theorem C48_violated_no_for (h : Str) (hh : Ascii h) (f : Forwarded) :
    Forwarded.parse (Forwarded.headerValue (Forwarded.setHost {} h)) ≠ .ok f := by
  have e : Forwarded.headerValue (Forwarded.setHost {} h) = s!!";host=" ++ h := by
    rw [Forwarded.headerValue_eq]; rfl
  have ha : isAscii (s!!";host=" ++ h) = true := by
    rw [isAscii_append, (spec_ascii_iff _).mp hh]; rfl
  rw [e]
  intro hp
  obtain ⟨ps, ht, _⟩ := ((Forwarded.reads ha).1 f).mp hp
  rcases Forwarded.text_head ht with e | ⟨c, t, e, hc⟩
  · simp at e
  · simp at e
    obtain ⟨rfl, _⟩ := e
    exact Forwarded.sep_not_tchar ';' (by simp) hc

/-- **C48** is violated: a `host` with a port is not a token, so it is not read back. -/
theorem C48_violated_port (v6 : Str → Option Str) :
    ¬ RoundTrips s!!"forwarded"
      (.ok (Forwarded.headerValue (Forwarded.setHost (Forwarded.addFor {} s!!"a") s!!"example.com:8080")))
      (Forwarded.fromHeaders v6) (Forwarded.setHost (Forwarded.addFor {} s!!"a") s!!"example.com:8080") := by
  rw [C48_round_trip_partial]
  intro h
  have := h.2.2.1 s!!"example.com:8080" rfl
  have := (Mime.isToken_iff _).mpr (this.2 ':' (by decide))
  revert this
  decide

/-- **C48** is violated: a `for` value with `!` that needs quoting is not read back. -/
theorem C48_violated_bang (v6 : Str → Option Str) {v : Str} (h1 : '!' ∈ v) (h2 : ¬ Token v) :
    ¬ RoundTrips s!!"forwarded" (.ok (Forwarded.headerValue (Forwarded.addFor {} v)))
      (Forwarded.fromHeaders v6) (Forwarded.addFor {} v) := by
  rw [C48_round_trip_partial]
  intro h
  have := (h.1 v (by simp [Forwarded.addFor])).2
  rcases this with h | h
  · exact h2 h
  · rcases h _ h1 with h | h | h
    · rcases h with h | h | h | h <;> revert h <;> decide
    · revert h; decide
    · revert h; decide

example : '!' ∈ s!!"a b!" ∧ ¬ Token s!!"a b!" := by
  refine ⟨by decide, fun h => ?_⟩
  have := (Mime.isToken_iff _).mpr (h.2 ' ' (by decide))
  revert this
  decide

/-- **C04** is violated: a `Forwarded` value is written without checking that it is ASCII. -/
theorem C04_violated_forwarded : ∃ f : Forwarded, ¬ Ascii f.headerValue :=
  ⟨Forwarded.setHost {} s!!"é", by decide +kernel⟩

/-- **C50**: when `Forwarded` is present its first value alone determines the result; otherwise the
`X-Forwarded-*` headers do, and without any of them there is no result. -/
theorem C50_fallback (v6 : Str → Option Str) (h : Headers) :
    (∀ v vs, h.get s!!"forwarded" = some (v :: vs) →
      Forwarded.fromHeaders v6 h = (Forwarded.parse v).map some) ∧
    (h.get s!!"forwarded" = none → ∀ fo by' ho pr : Option Str,
      FirstValue h s!!"x-forwarded-for" fo → FirstValue h s!!"x-forwarded-by" by' →
      FirstValue h s!!"x-forwarded-host" ho → FirstValue h s!!"x-forwarded-proto" pr →
      (fo = none ∧ by' = none ∧ ho = none ∧ pr = none → Forwarded.fromHeaders v6 h = .ok none) ∧
      (¬ (fo = none ∧ by' = none ∧ ho = none ∧ pr = none) →
        ∃ fors, Forwarded.fromHeaders v6 h = .ok (some ⟨by', fors, ho, pr⟩) ∧
          (fo = none → fors = []) ∧ (∀ t, fo = some t → List.Forall₂ (XEntry v6) (split ',' t) fors))) := by
  refine ⟨?_, ?_⟩
  · intro v vs hg
    unfold Forwarded.fromHeaders Forwarded.fromForwardedHeader Forwarded.NAME
    rw [hg]
    simp only [HeaderValues.first, List.head?_cons, Res.unwrap_some, Res.bind_ok]
    cases Forwarded.parse v <;> rfl
  · intro hg fo by' ho pr h1 h2 h3 h4
    have key : ∀ name o, FirstValue h name o → Forwarded.xValue h name = .ok o := by
      intro name o ho
      unfold Forwarded.xValue
      cases o with
      | none =>
        have : h.get name = none := ho
        rw [this]
      | some v =>
        obtain ⟨vs, hv⟩ := ho
        rw [hv]
        rfl
    have hx : Forwarded.fromHeaders v6 h = Forwarded.fromXHeaders v6 h := by
      unfold Forwarded.fromHeaders Forwarded.fromForwardedHeader Forwarded.NAME
      rw [hg]
      rfl
    rw [hx]
    unfold Forwarded.fromXHeaders Forwarded.X_FOR Forwarded.X_BY Forwarded.X_PROTO Forwarded.X_HOST
    rw [key _ _ h1, key _ _ h2, key _ _ h3, key _ _ h4]
    have fe : ∀ l : List Str, List.Forall₂ (XEntry v6) l (l.map (Forwarded.xForEntry v6)) := by
      intro l
      induction l with
      | nil => exact .nil
      | cons a l ih =>
        refine .cons ⟨?_, ?_⟩ ih
        · intro x hx
          unfold Forwarded.xForEntry
          rw [hx]
        · intro hx
          unfold Forwarded.xForEntry
          rw [hx]
    cases fo with
    | none =>
      refine ⟨?_, ?_⟩
      · rintro ⟨_, rfl, rfl, rfl⟩; rfl
      · intro hn
        refine ⟨[], ?_, fun _ => rfl, fun t ht => (by cases ht)⟩
        cases by' with
        | some b => rfl
        | none =>
          cases pr with
          | some p => rfl
          | none =>
            cases ho with
            | some h => rfl
            | none => exact absurd ⟨rfl, rfl, rfl, rfl⟩ hn
    | some t =>
      refine ⟨fun hn => absurd hn.1 (by simp), fun _ => ?_⟩
      refine ⟨(split ',' t).map (Forwarded.xForEntry v6), ?_, fun hn => (by cases hn), fun t' ht => (by cases ht; exact fe _)⟩
      simp only [Res.map_ok, Res.bind_ok]
      rw [if_pos]
      simp [split_ne_nil]

example : FirstValue (oneHeader s!!"x-forwarded-for" s!!"1.2.3.4, ::1") s!!"x-forwarded-for" (some s!!"1.2.3.4, ::1") ∧
    FirstValue (oneHeader s!!"x-forwarded-for" s!!"1.2.3.4, ::1") s!!"x-forwarded-by" none ∧
    (oneHeader s!!"x-forwarded-for" s!!"1.2.3.4, ::1").get s!!"forwarded" = none :=
  ⟨⟨[], by decide +kernel⟩, by show _ = _; decide +kernel, by decide +kernel⟩

example : Forwarded.fromHeaders (fun s => if s = s!!"0::1" then some s!!"::1" else none)
    (oneHeader s!!"x-forwarded-for" s!!"1.2.3.4, 0::1") =
    .ok (some ⟨none, [s!!"1.2.3.4", s!!"[::1]"], none, none⟩) := by decide +kernel

/-- **C61**, tokens: the token parser takes the longest token at the start of the text. -/
theorem C61_token (s : Str) :
    (∀ t r, parseToken s = (some t, r) ↔ s = t ++ r ∧ Token t ∧ ∀ c, r.head? = some c → ¬ TChar c) ∧
    (∀ r, parseToken s = (none, r) ↔ r = s ∧ ∀ c, s.head? = some c → ¬ TChar c) := by
  refine ⟨fun t r => ⟨?_, ?_⟩, fun r => ⟨?_, ?_⟩⟩
  · intro h
    rcases parseToken_cases s with ⟨t', r', h1, h2, h3, h4⟩ | ⟨h1, _⟩
    · rw [h4] at h; cases h; exact ⟨h1, h2, h3⟩
    · rw [h1] at h; cases h
  · rintro ⟨rfl, h2, h3⟩
    exact parseToken_of h2 h3
  · intro h
    rcases parseToken_cases s with ⟨t', r', h1, h2, h3, h4⟩ | ⟨h1, h2⟩
    · rw [h4] at h; cases h
    · rw [h1] at h; cases h; exact ⟨rfl, h2⟩
  · rintro ⟨rfl, h⟩
    rcases parseToken_cases r with ⟨t', r', h1, h2, h3, h4⟩ | ⟨h1, h2⟩
    · obtain ⟨c, t, e, hc⟩ := Forwarded.token_head (r := r') h2
      rw [← h1] at e
      exact absurd hc (h c (by rw [e]; rfl))
    · exact h1

example : parseToken s!!"key=value" = (some s!!"key", s!!"=value") := by decide +kernel

/-- **C61**, quoted strings on ASCII text: the parser reads exactly the quoted strings, gives what they
stand for and stops right after them; it never panics. -/
theorem C61_quoted {s : Str} (hs : Ascii s) :
    (∀ v r, parseQuotedString s = .ok (some v, r) ↔ ∃ e, s = '"' :: (e ++ '"' :: r) ∧ QuotedText e v) ∧
    ((¬ ∃ e v r, s = '"' :: (e ++ '"' :: r) ∧ QuotedText e v) → parseQuotedString s = .ok (none, s)) := by
  have ha := (spec_ascii_iff _).mp hs
  refine ⟨fun v r => ⟨?_, ?_⟩, ?_⟩
  · intro h
    rcases parseQuotedString_ascii ha with ⟨e, v', r', h1, h2, h3⟩ | ⟨h1, _⟩
    · rw [h3] at h; cases h; exact ⟨e, h1, h2⟩
    · rw [h1] at h; cases h
  · rintro ⟨e, h1, h2⟩
    rcases parseQuotedString_ascii ha with ⟨e', v', r', h3, h4, h5⟩ | ⟨_, h3⟩
    · rw [h3] at h1
      simp only [List.cons.injEq, true_and] at h1
      obtain ⟨_, rfl, rfl⟩ := Forwarded.quoted_unique h4 h2 h1
      exact h5
    · exact absurd h1 (h3 e v r h2)
  · intro h
    rcases parseQuotedString_ascii ha with ⟨e, v', r', h1, h2, h3⟩ | ⟨h1, _⟩
    · exact absurd ⟨e, v', r', h1, h2⟩ h
    · exact h1

example : parseQuotedString s!!"\"a \\\" b\";c" = .ok (some s!!"a \" b", s!!";c") := by decide +kernel

/-- **C61**, exactly when quoting is undone, on ASCII text: for texts that need quoting, if and only if
every character is a quote, a backslash or may stand for itself in a quoted string (which `!` may not). -/
theorem C61_unquotes_partial {v r : Str} (hv : Ascii v) (hr : Ascii r) (hn : v ≠ []) (ht : ¬ Token v) :
    parseQuotedString (Forwarded.formatValue v ++ r) = .ok (some v, r) ↔
      ∀ c ∈ v, QdText c ∨ c = '"' ∨ c = '\\' := by
  have e : Forwarded.formatValue v ++ r = '"' :: (Forwarded.quoteBody v ++ '"' :: r) := by
    rw [Forwarded.formatValue_eq, if_neg (by rintro (h | h); exact ht h; exact hn h)]
    simp
  have ha : Ascii (Forwarded.formatValue v ++ r) := by
    rw [e]
    intro c hc
    simp only [List.mem_cons, List.mem_append] at hc
    rcases hc with rfl | hc | rfl | hc
    · decide
    · unfold Forwarded.quoteBody at hc
      rw [List.mem_flatMap] at hc
      obtain ⟨d, hd, hc⟩ := hc
      split at hc
      · simp at hc
        rcases hc with rfl | rfl
        · decide
        · exact hv _ hd
      · simp at hc
        subst hc
        exact hv _ hd
    · decide
    · exact hr _ hc
  rw [(C61_quoted ha).1]
  constructor
  · rintro ⟨e', h1, h2⟩
    rw [e] at h1
    simp only [List.cons.injEq, true_and] at h1
    exact (Forwarded.quoteBody_survives h2 h1.symm).1
  · intro h
    exact ⟨_, e, Forwarded.quoteBody_quoted h⟩

example : Ascii s!!"a \" \\ b" ∧ s!!"a \" \\ b" ≠ [] ∧ ¬ Token s!!"a \" \\ b" := by
  refine ⟨by decide, by decide, fun h => ?_⟩
  have := (Mime.isToken_iff _).mpr (h.2 ' ' (by decide))
  revert this
  decide

/-- **C61** is violated: `!` is a legal character of quoted strings but is refused, and the control
character 15 is accepted. -/
theorem C61_violated_bang : parseQuotedString s!!"\"a!\"" = .ok (none, s!!"\"a!\"") ∧
    ∃ c : Char, c.toNat = 15 ∧ parseQuotedString ['"', c, '"'] = .ok (some [c], []) :=
  ⟨by decide +kernel, Char.ofNat 15, by decide +kernel, by decide +kernel⟩

/-- **C61** is violated outside ASCII: some characters are dropped or make the parser panic. -/
theorem C61_violated_wide : parseQuotedString s!!"\"Ŝ\"" = .ok (some [], []) ∧
    parseQuotedString s!!"\"Ģ\"" = .panic := by decide +kernel

end HT
