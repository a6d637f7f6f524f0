import Verif.Lemmas.ForwardedAny
import Verif.Props.Forwarded

/-! `Forwarded` and the string parsers under it, for any text: C48, C49, C61. -/

namespace HT

open Spec ParseUtils

namespace Forwarded

/-- What reading a text gives: it succeeds exactly on the legal texts, panics exactly on the texts that
break, and otherwise fails; the failure becomes status 500. -/
theorem readsAny (s : Str) :
    (∀ f, parse s = .ok f ↔ ∃ ps, ForwardedAny s ps ∧ AmountsTo ps f) ∧
    (parse s = .panic ↔ ∃ ps, Breaks s ps ∧ NoRepeats ps) ∧
    (∀ t, parse s = .err t → t = 500) := by
  unfold parse
  have ht : ∀ ps, ForwardedAny s ps → parseLoop {} s = runPairs {} ps := fun ps h => loopAny_text h
  have hc : ∀ ps, Breaks s ps → parseLoop {} s = (runPairs {} ps).bind fun _ => .panic :=
    fun ps h => loopAny_breaks h
  refine ⟨fun f => ⟨?_, ?_⟩, ⟨?_, ?_⟩, ?_⟩
  · intro h
    rcases loopAny_cases s {} with ⟨ps, hp⟩ | ⟨ps, hp⟩ | he
    · rw [ht ps hp, amounts_iff] at h
      exact ⟨ps, hp, h⟩
    · rw [hc ps hp] at h
      rcases runPairs_clean ps {} with ⟨f, e⟩ | e <;> rw [e] at h <;> cases h
    · rw [he] at h; cases h
  · rintro ⟨ps, hp, ha⟩
    rw [ht ps hp, amounts_iff]
    exact ha
  · intro h
    rcases loopAny_cases s {} with ⟨ps, hp⟩ | ⟨ps, hp⟩ | he
    · rw [ht ps hp] at h
      rcases runPairs_clean ps {} with ⟨f, e⟩ | e <;> rw [e] at h <;> cases h
    · refine ⟨ps, hp, ?_⟩
      rw [← noRepeats_iff]
      rw [hc ps hp] at h
      rcases runPairs_clean ps {} with ⟨f, e⟩ | e
      · exact ⟨f, e⟩
      · rw [e] at h; cases h
    · rw [he] at h; cases h
  · rintro ⟨ps, hp, hr⟩
    rw [← noRepeats_iff] at hr
    obtain ⟨f, e⟩ := hr
    rw [hc ps hp, e]
    rfl
  · intro t h
    rcases loopAny_cases s {} with ⟨ps, hp⟩ | ⟨ps, hp⟩ | he
    · rw [ht ps hp] at h
      rcases runPairs_clean ps {} with ⟨f, e⟩ | e <;> rw [e] at h <;> cases h
      rfl
    · rw [hc ps hp] at h
      rcases runPairs_clean ps {} with ⟨f, e⟩ | e <;> rw [e] at h <;> cases h
      rfl
    · rw [he] at h; cases h; rfl
end Forwarded

/-- **C49**, exactly what happens, for every text: it is read exactly when it is legal, with the meaning of
its parameters; reading panics exactly on the texts that break after legal elements; every other text is an
error. -/
theorem C49_reads_all_partial (s : Str) :
    (∀ f, Forwarded.parse s = .ok f ↔ ∃ ps, ForwardedAny s ps ∧ AmountsTo ps f) ∧
    (Forwarded.parse s = .panic ↔ ∃ ps, Breaks s ps ∧ NoRepeats ps) ∧
    (∀ t, Forwarded.parse s = .err t → t = 500) :=
  Forwarded.readsAny s

/-- A text outside ASCII that is read, one that loses a character, and three that panic: at the fourth
byte, at a wide quote and after a comma. -/
example : Forwarded.parse s!!"for=\"é\";host=a" = .ok ⟨none, [s!!"é"], some s!!"a", none⟩ ∧
    Forwarded.parse s!!"for=\"aŜb\"" = .ok ⟨none, [s!!"ab"], none, none⟩ ∧
    Forwarded.parse s!!"by=é" = .panic ∧ Forwarded.parse s!!"for=\"Ģ\"" = .panic ∧
    Forwarded.parse s!!"for=a, by=é" = .panic ∧ Forwarded.parse s!!"for=a, fœr=b" = .err 500 := by decide +kernel

/-- **C61**, quoted strings in any text: the parser reads exactly the quoted strings, gives what they stand
for and stops right after them; it panics exactly when a wide character is taken for the closing quote; on
every other text it gives nothing and consumes nothing. -/
theorem C61_quoted_all (s : Str) :
    (∀ v r, parseQuotedString s = .ok (some v, r) ↔ ∃ e, s = '"' :: (e ++ '"' :: r) ∧ QuotedAny e v) ∧
    (parseQuotedString s = .panic ↔ ∃ e v c r, s = '"' :: (e ++ c :: r) ∧ QuotedAny e v ∧ Broken c) ∧
    ((∀ v r, parseQuotedString s ≠ .ok (some v, r)) → parseQuotedString s ≠ .panic →
      parseQuotedString s = .ok (none, s)) := by
  refine ⟨fun v r => ⟨?_, ?_⟩, ⟨?_, ?_⟩, ?_⟩
  · intro h
    rcases parseQuotedString_any s with ⟨e, v', c, r', h1, h2, h3, h4⟩ | ⟨h1, _⟩
    · by_cases hc : c = '"'
      · subst hc
        rw [h4, if_pos rfl] at h
        cases h
        exact ⟨e, h1, h2⟩
      · rw [h4, if_neg hc] at h; cases h
    · rw [h1] at h; cases h
  · rintro ⟨e, rfl, h2⟩
    exact Forwarded.parseQuotedString_of h2
  · intro h
    rcases parseQuotedString_any s with ⟨e, v', c, r', h1, h2, h3, h4⟩ | ⟨h1, _⟩
    · by_cases hc : c = '"'
      · rw [h4, if_pos hc] at h; cases h
      · exact ⟨e, v', c, r', h1, h2, h3, hc⟩
    · rw [h1] at h; cases h
  · rintro ⟨e, v, c, r, rfl, h2, h3⟩
    exact Forwarded.parseQuotedString_broken h2 h3
  · intro h1 h2
    rcases parseQuotedString_any s with ⟨e, v', c, r', h3, h4, h5, h6⟩ | ⟨h, _⟩
    · by_cases hc : c = '"'
      · rw [if_pos hc] at h6; exact absurd h6 (h1 _ _)
      · rw [if_neg hc] at h6; exact absurd h6 h2
    · exact h

example : parseQuotedString s!!"\"é \\Ŝ Ŝ\"x" = .ok (some s!!"é Ŝ ", s!!"x") ∧
    parseQuotedString s!!"\"é Ģ\"" = .panic ∧ parseQuotedString s!!"\"é" = .ok (none, s!!"\"é") := by
  decide +kernel

namespace Forwarded

/-- The characters that survive quoting. -/
def SurvivesAny (c : Char) : Prop := QAny c ∨ c = '"' ∨ c = '\\'

instance (c : Char) : Decidable (Lost c) := inferInstanceAs (Decidable (_ ∧ _))

/-- How a quoted text is read: the lost characters are left out, every other character survives. -/
theorem quoteBody_read {v : Str} : ∀ {e w r r' : Str}, QuotedAny e w → e ++ '"' :: r = quoteBody v ++ '"' :: r' →
    (∀ c ∈ v, SurvivesAny c ∨ Lost c) ∧ w = v.filter (fun c => ¬ Lost c) ∧ r = r' := by
  induction v with
  | nil =>
    intro e w r r' h he
    have he : e ++ '"' :: r = [] ++ '"' :: r' := he
    obtain ⟨rfl, rfl, _, rfl⟩ := quotedAny_unique h .nil rfl rfl he
    exact ⟨by simp, rfl, rfl⟩
  | cons c v ih =>
    intro e w r r' h he
    have eq : quoteBody (c :: v) = (if c = '\\' ∨ c = '"' then ['\\', c] else [c]) ++ quoteBody v := by
      unfold quoteBody
      rw [List.flatMap_cons]
    rw [eq] at he
    by_cases hc : c = '\\' ∨ c = '"'
    · rw [if_pos hc] at he
      have hl : ¬ Lost c := by rcases hc with rfl | rfl <;> decide
      rw [List.filter_cons, if_pos (by simpa using hl)]
      cases h with
      | nil => exact absurd (List.cons.inj he).1 (by decide)
      | plain hq _ => exact absurd ((List.cons.inj he).1 ▸ hq) (not_qany_backslash rfl)
      | lost hq _ => exact absurd (List.cons.inj he).1 hq.2
      | pair _ hq =>
        simp only [List.cons_append, List.nil_append, List.cons.injEq, true_and] at he
        obtain ⟨rfl, he⟩ := he
        obtain ⟨a, b, d⟩ := ih hq he
        refine ⟨?_, by rw [b], d⟩
        intro x hx
        rcases List.mem_cons.mp hx with rfl | hx
        · rcases hc with h | h
          · exact .inl (.inr (.inr h))
          · exact .inl (.inr (.inl h))
        · exact a x hx
    · rw [if_neg hc] at he
      rw [List.filter_cons]
      cases h with
      | nil => exact absurd (.inr (List.cons.inj he).1.symm) hc
      | plain hq hq' =>
        simp only [List.cons_append, List.nil_append, List.cons.injEq] at he
        obtain ⟨rfl, he⟩ := he
        obtain ⟨a, b, d⟩ := ih hq' he
        have hl : ¬ Lost _ := fun h => not_qany_backslash h.1 hq
        rw [if_pos (by simpa using hl)]
        refine ⟨?_, by rw [b], d⟩
        intro x hx
        rcases List.mem_cons.mp hx with rfl | hx
        · exact .inl (.inl hq)
        · exact a x hx
      | lost hq hq' =>
        simp only [List.cons_append, List.nil_append, List.cons.injEq] at he
        obtain ⟨rfl, he⟩ := he
        obtain ⟨a, b, d⟩ := ih hq' he
        rw [if_neg (by simpa using hq)]
        refine ⟨?_, b, d⟩
        intro x hx
        rcases List.mem_cons.mp hx with rfl | hx
        · exact .inr hq
        · exact a x hx
      | pair _ hq =>
        exact absurd (.inl (List.cons.inj he).1.symm) hc

theorem quoteBody_quotedAny {v : Str} (h : ∀ c ∈ v, SurvivesAny c ∨ Lost c) :
    QuotedAny (quoteBody v) (v.filter (fun c => ¬ Lost c)) := by
  induction v with
  | nil => exact .nil
  | cons c v ih =>
    have ih := ih (fun d hd => h d (by simp [hd]))
    unfold quoteBody at ih ⊢
    rw [List.flatMap_cons, List.filter_cons]
    by_cases hc : c = '\\' ∨ c = '"'
    · have hl : ¬ Lost c := by rcases hc with rfl | rfl <;> decide
      rw [if_pos hc, if_pos (by simpa using hl)]
      refine .pair ?_ ih
      rcases hc with rfl | rfl <;> exact .inr (by decide)
    · rw [if_neg hc]
      rcases h c (by simp) with (h | h | h) | h
      · have hl : ¬ Lost c := fun hl => not_qany_backslash hl.1 h
        rw [if_pos (by simpa using hl)]
        exact .plain h ih
      · exact absurd (.inr h) hc
      · exact absurd (.inl h) hc
      · rw [if_neg (by simpa using h)]
        exact .lost h ih

/-- The characters of a text all survive, or the text comes back changed. -/
theorem filter_lost {v : Str} (h : ∀ c ∈ v, SurvivesAny c ∨ Lost c) :
    v = v.filter (fun c => ¬ Lost c) ↔ ∀ c ∈ v, SurvivesAny c := by
  rw [eq_comm, List.filter_eq_self]
  constructor
  · intro h2 c hc
    rcases h c hc with h' | h'
    · exact h'
    · exact absurd h' (by simpa using h2 c hc)
  · intro h2 c hc
    have : ¬ Lost c := by
      intro hl
      rcases h2 c hc with h | rfl | rfl
      · exact not_qany_backslash hl.1 h
      · exact absurd hl (by decide)
      · exact absurd hl (by decide)
    simpa using this

end Forwarded

/-- **C61**, how quoting is undone, for any text that needs quoting and whatever follows: each character is
a quote, a backslash, may stand for itself, or is lost; and the lost characters are missing. -/
theorem C61_unquoting_all_partial {v w r : Str} (hn : v ≠ []) (ht : ¬ Token v) :
    parseQuotedString (Forwarded.formatValue v ++ r) = .ok (some w, r) ↔
      (∀ c ∈ v, QAny c ∨ c = '"' ∨ c = '\\' ∨ Lost c) ∧ w = v.filter (fun c => ¬ Lost c) := by
  have e : Forwarded.formatValue v ++ r = '"' :: (Forwarded.quoteBody v ++ '"' :: r) := by
    rw [Forwarded.formatValue_eq, if_neg (by rintro (h | h); exact ht h; exact hn h)]
    simp
  have hs : ∀ c : Char, (QAny c ∨ c = '"' ∨ c = '\\' ∨ Lost c) ↔ (Forwarded.SurvivesAny c ∨ Lost c) := by
    intro c
    unfold Forwarded.SurvivesAny
    tauto
  simp only [hs]
  rw [(C61_quoted_all _).1]
  constructor
  · rintro ⟨e', h1, h2⟩
    rw [e] at h1
    simp only [List.cons.injEq, true_and] at h1
    have := Forwarded.quoteBody_read h2 h1.symm
    exact ⟨this.1, this.2.1⟩
  · rintro ⟨h, rfl⟩
    exact ⟨_, e, Forwarded.quoteBody_quotedAny h⟩

example : ParseUtils.parseQuotedString (Forwarded.formatValue s!!"a b" ++ s!!";x") = .ok (some s!!"a b", s!!";x") := by decide +kernel

/-- **C61**, exactly when quoting is undone, for any text that needs quoting and whatever follows: if and
only if every character is a quote, a backslash or may stand for itself in a quoted string. -/
theorem C61_unquotes_all_partial {v r : Str} (hn : v ≠ []) (ht : ¬ Token v) :
    parseQuotedString (Forwarded.formatValue v ++ r) = .ok (some v, r) ↔
      ∀ c ∈ v, QAny c ∨ c = '"' ∨ c = '\\' := by
  rw [C61_unquoting_all_partial hn ht]
  have hs : ∀ c : Char, (QAny c ∨ c = '"' ∨ c = '\\' ∨ Lost c) ↔ (Forwarded.SurvivesAny c ∨ Lost c) := by
    intro c
    unfold Forwarded.SurvivesAny
    tauto
  simp only [hs]
  constructor
  · rintro ⟨h1, h2⟩
    exact (Forwarded.filter_lost h1).mp h2
  · intro h
    have h1 : ∀ c ∈ v, Forwarded.SurvivesAny c ∨ Lost c := fun c hc => .inl (h c hc)
    exact ⟨h1, (Forwarded.filter_lost h1).mpr h⟩

example : s!!"é \" Ŝ" ≠ [] ∧ ¬ Token s!!"é \" Ŝ" ∧
    parseQuotedString (Forwarded.formatValue s!!"é \" Ŝ" ++ s!!";x") = .ok (some s!!"é \" ", s!!";x") := by
  refine ⟨by decide, fun h => ?_, by decide +kernel⟩
  have := (Mime.isToken_iff _).mpr (h.2 ' ' (by decide))
  revert this
  decide

namespace Forwarded

/-! ### Writing and reading back -/

/-- What the inside of a quoted string stands for is no longer than the inside. -/
theorem quotedAny_length {e v : Str} (h : QuotedAny e v) : v.length ≤ e.length := by
  induction h with
  | nil => simp
  | plain _ _ ih => simp; omega
  | lost _ _ ih => simp; omega
  | pair _ _ ih => simp; omega

theorem quotedAny_shift {e v : Str} (h : QuotedAny e v) : ∀ {p r x : Str}, p ≠ [] → ';' ∉ p →
    p ++ (e ++ '"' :: r) ≠ v ++ ';' :: x := by
  induction h with
  | nil =>
    intro p r x hp hs he
    cases p with
    | nil => exact hp rfl
    | cons a p =>
      simp at he
      exact hs (by simp [he.1])
  | @plain c s v _ _ ih =>
    intro p r x hp hs he
    cases p with
    | nil => exact hp rfl
    | cons a p =>
      simp only [List.cons_append, List.cons.injEq] at he
      obtain ⟨rfl, he⟩ := he
      refine ih (p := p ++ [a]) (r := r) (x := x) (by simp) ?_ (by simpa using he)
      simp only [List.mem_append, List.mem_cons, List.not_mem_nil, or_false] at hs ⊢
      tauto
  | @lost c s v hl _ ih =>
    intro p r x hp hs he
    refine ih (p := p ++ [c]) (r := r) (x := x) (by simp) ?_ (by simpa using he)
    have : ';' ≠ c := by rintro rfl; exact absurd hl (by decide)
    simp only [List.mem_append, List.mem_cons, List.not_mem_nil, or_false] at hs ⊢
    tauto
  | @pair c s v _ _ ih =>
    intro p r x hp hs he
    cases p with
    | nil => exact hp rfl
    | cons a p =>
      simp only [List.cons_append, List.cons.injEq] at he
      obtain ⟨rfl, he⟩ := he
      refine ih (p := p ++ ['\\', a]) (r := r) (x := x) (by simp) ?_ (by simpa using he)
      have : ';' ≠ '\\' := by decide
      simp only [List.mem_append, List.mem_cons, List.not_mem_nil, or_false] at hs ⊢
      tauto

/-- A raw value reads as itself exactly when it is a token. -/
theorem rawAny {x z raw v r : Str} (hz : Ends z) (he : x ++ z = raw ++ r) (hp : ParamAny raw v)
    (hr : Token raw → ∀ c, r.head? = some c → ¬ TChar c) (hv : v = x) : Token x ∧ raw = x ∧ r = z := by
  subst hv
  rcases hp with ⟨rfl, ht⟩ | ⟨e, rfl, hq⟩
  · exact ⟨ht, rfl, (List.append_cancel_left he).symm⟩
  · exfalso
    rcases hz with rfl | ⟨y, rfl⟩
    · have := congrArg List.length he
      have h2 := quotedAny_length hq
      simp at this
      omega
    · refine quotedAny_shift hq (p := ['"']) (r := r) (x := y) (by simp) (by decide) ?_
      rw [he]
      simp

theorem loopAny_mono {f f' : Forwarded} {s : Str} (h : parseLoop f s = .ok f') :
    (∃ l, f'.forwardedFor = f.forwardedFor ++ l) ∧ (∀ v, f.by' = some v → f'.by' = some v) ∧
    (∀ v, f.host = some v → f'.host = some v) ∧ (∀ v, f.proto = some v → f'.proto = some v) := by
  have key : ∀ (o o' : Option Str) (l : List Str), o.toList ++ l = o'.toList → ∀ v, o = some v → o' = some v := by
    intro o o' l he v hv
    subst hv
    cases o' with
    | none => cases he
    | some w => simp at he; rw [he.1]
  rcases loopAny_cases s f with ⟨ps, hp⟩ | ⟨ps, hp⟩ | he
  · rw [loopAny_text hp, runPairs_iff] at h
    exact ⟨⟨_, h.1⟩, key _ _ _ h.2.1, key _ _ _ h.2.2.1, key _ _ _ h.2.2.2⟩
  · rw [loopAny_breaks hp] at h
    rcases runPairs_clean ps f with ⟨g, e⟩ | e <;> rw [e] at h <;> cases h
  · rw [he] at h; cases h

/-- A written token does not cross the fourth byte. -/
theorem pair_straddles {k x z : Str} (hk : Token k) (hx : Token x) (hl : 2 ≤ k.length) :
    ¬ Straddles (k ++ '=' :: (x ++ z)) := by
  have hx0 : 1 ≤ x.length := by
    obtain ⟨hn, _⟩ := hx
    cases x with
    | nil => exact absurd rfl hn
    | cons _ _ => simp
  have ha : isAscii (k ++ '=' :: x) = true := by
    rw [isAscii_append, isAscii_cons, isAscii_token hk, isAscii_token hx]
    rfl
  rintro ⟨a, c, r, h1, h2, h3⟩
  have p1 := splitAtByte_inside (r := r) h2 h3
  have h4 : 4 ≤ (k ++ '=' :: x).length := by simp; omega
  have e : k ++ '=' :: (x ++ z) = (k ++ '=' :: x).take 4 ++ ((k ++ '=' :: x).drop 4 ++ z) := by
    rw [← List.append_assoc, List.take_append_drop]
    simp
  have p2 := splitAtByte_of ((k ++ '=' :: x).take 4) ((k ++ '=' :: x).drop 4 ++ z)
  have ht : isAscii ((k ++ '=' :: x).take 4) = true := by
    rw [isAscii_iff] at ha ⊢
    exact fun c hc => ha c (List.mem_of_mem_take hc)
  rw [byteLen_ascii ht, List.length_take, Nat.min_eq_left h4, ← e, h1, p1] at p2
  cases p2

/-- A written `by`, `host` or `proto` parameter. -/
theorem writeAny_pair {g f : Forwarded} {k x z : Str} {set : Str → Forwarded} {get : Forwarded → Option Str}
    (hk : Token k) (hf : ¬ IsFor k) (hz : Ends z) (hl : 2 ≤ k.length)
    (hstore : ∀ v, store g k v = .ok (set v)) (hset : ∀ v, get (set v) = some v)
    (hmono : ∀ (g f : Forwarded) (s : Str), parseLoop g s = .ok f →
      ∀ v, get g = some v → get f = some v) (hx : get f = some x) :
    parseLoop g (k ++ '=' :: (x ++ z)) = .ok f ↔ Token x ∧ parseLoop (set x) (stripSemi z) = .ok f := by
  constructor
  · intro h
    have hst : ¬ Straddles (k ++ '=' :: (x ++ z)) := by
      intro hst
      rw [loopAny_straddles hst] at h
      cases h
    have hpair : ∀ a, parseValue (x ++ z) = a → (∀ v r, a ≠ .ok (some v, r)) → False := by
      intro a h4 ha
      rw [loopAny_pair (not_startsFor hk hf) hst (by simp)] at h
      unfold parsePair at h
      rw [parseToken_of hk equals_head] at h
      simp only at h
      rw [h4] at h
      match a, ha with
      | .ok (some v, r), ha => exact ha v r rfl
      | .ok (none, _), _ => cases h
      | .err _, _ => cases h
      | .panic, _ => cases h
    rcases valueAny_cases (x ++ z) with ⟨raw, v, r, h1, h2, h3, h4⟩ | ⟨_, _, _, _, _, _, _, h4⟩ | ⟨y, h4⟩
    · rw [h1] at h hst
      rw [loopAny_other hst hk hf h2 h3, hstore] at h
      simp only [Res.bind_ok] at h
      have := hmono _ _ _ h v (hset v)
      rw [hx] at this
      cases this
      obtain ⟨a, rfl, rfl⟩ := rawAny hz h1 h2 h3 rfl
      exact ⟨a, h⟩
    · exact (hpair _ h4 (by simp)).elim
    · exact (hpair _ h4 (by simp)).elim
  · rintro ⟨ht, h⟩
    rw [loopAny_other (pair_straddles hk ht hl) hk hf (.inl ⟨rfl, ht⟩) (fun _ => ends_head hz), hstore]
    exact h

theorem afterForAny_mono {f f' : Forwarded} {r : Str} (h : afterForAny f r = .ok f') :
    ∃ l, f'.forwardedFor = f.forwardedFor ++ l := by
  unfold afterForAny at h
  split at h
  · next r =>
    split at h
    · exact (loopAny_mono h).1
    · split at h <;> cases h
  · exact (loopAny_mono h).1
  · cases h; exact ⟨[], by simp⟩
  · cases h

theorem writeAny_for {g f : Forwarded} {v z : Str} {more : List Str} (hz : ForEnds z)
    (hv : f.forwardedFor = g.forwardedFor ++ v :: more) :
    parseLoop g (s!!"for" ++ '=' :: (formatValue v ++ z)) = .ok f ↔
      ForValueAny v ∧ afterForAny (push g v) z = .ok f := by
  have hFor : IsFor s!!"for" := by decide
  constructor
  · intro h
    rw [loopAny_for hFor] at h
    rcases valueAny_cases (formatValue v ++ z) with ⟨raw, v', r, h1, h2, h3, h4⟩ | ⟨_, _, _, _, _, _, _, h4⟩ | ⟨y, h4⟩
    · rw [h4] at h
      simp only [Res.bind_ok] at h
      obtain ⟨l, hl⟩ := afterForAny_mono h
      have hvv : v' = v := by
        rw [hv] at hl
        simp [push] at hl
        exact hl.1.symm
      subst hvv
      rw [formatValue_eq] at h1
      by_cases ht : Token v' ∨ v' = []
      · rw [if_pos ht] at h1
        rcases ht with ht | rfl
        · rcases h2 with ⟨rfl, _⟩ | ⟨e, rfl, he⟩
          · cases (List.append_cancel_left h1)
            exact ⟨⟨ht.1, .inl ht⟩, h⟩
          · exfalso
            obtain ⟨hne, hall⟩ := ht
            cases v' with
            | nil => exact hne rfl
            | cons c v' =>
              simp only [List.cons_append, List.cons.injEq] at h1
              obtain ⟨rfl, _⟩ := h1
              exact not_token_quote _ ⟨by simp, hall⟩
        · exfalso
          rcases h2 with ⟨_, h2⟩ | ⟨e, rfl, he⟩
          · exact h2.1 rfl
          · rcases hz with rfl | ⟨x, rfl⟩ | ⟨x, rfl⟩ <;> simp at h1
      · rw [if_neg ht] at h1
        have hne : v' ≠ [] := fun e => ht (.inr e)
        rcases h2 with ⟨rfl, h2⟩ | ⟨e, rfl, he⟩
        · exact absurd (.inl h2) ht
        · have h1' : e ++ '"' :: r = quoteBody v' ++ '"' :: z := by
            have : '"' :: (quoteBody v' ++ ['"']) ++ z = '"' :: (quoteBody v' ++ '"' :: z) := by simp
            rw [this] at h1
            have : '"' :: (e ++ ['"']) ++ r = '"' :: (e ++ '"' :: r) := by simp
            rw [this] at h1
            simp only [List.cons.injEq, true_and] at h1
            exact h1.symm
          obtain ⟨a, b, rfl⟩ := quoteBody_read he h1'
          exact ⟨⟨hne, .inr ((filter_lost a).mp b)⟩, h⟩
    · rw [h4] at h; cases h
    · rw [h4] at h; cases h
  · rintro ⟨⟨hne, hfv⟩, h⟩
    have hp : ParamAny (formatValue v) v := by
      rw [formatValue_eq]
      by_cases ht : Token v
      · rw [if_pos (.inl ht)]; exact .inl ⟨rfl, ht⟩
      · rw [if_neg (by rintro (h | h); exact ht h; exact hne h)]
        refine .inr ⟨_, rfl, ?_⟩
        rcases hfv with h | h
        · exact absurd h ht
        · have h1 : ∀ c ∈ v, SurvivesAny c ∨ Lost c := fun c hc => .inl (h c hc)
          have := quoteBody_quotedAny h1
          rw [← (filter_lost h1).mpr h] at this
          exact this
    rw [loopAny_for_of hFor hp (fun _ => forEnds_head hz)]
    exact h

theorem writeAny_tail {g f : Forwarded} (hgh : g.host = none) (hgp : g.proto = none) (hb : f.by' = g.by') (hfor : f.forwardedFor = g.forwardedFor) :
    afterForAny g (tailPart f.host f.proto) = .ok f ↔ (∀ v ∈ f.host, Token v) ∧ (∀ v ∈ f.proto, Token v) := by
  have tokh : Token s!!"host" := ⟨by decide, fun c hc => by rw [← Mime.isToken_iff]; revert c; decide⟩
  have tokp : Token s!!"proto" := ⟨by decide, fun c hc => by rw [← Mime.isToken_iff]; revert c; decide⟩
  have proto_step : ∀ (g' : Forwarded) (p : Str), g'.proto = none → f.proto = some p →
      (parseLoop g' (s!!"proto" ++ '=' :: (p ++ [])) = .ok f ↔ Token p ∧ ({ g' with proto := some p } = f)) := by
    intro g' p h1 h2
    rw [writeAny_pair (set := fun v => { g' with proto := some v }) (get := fun f => f.proto) tokp not_isFor_proto
      (.inl rfl) (by decide) (by intro v; simp [store, h1]) (by simp) (fun g f s h => (loopAny_mono h).2.2.2) h2]
    rw [stripSemi_other (by simp), parseLoop_nil, Res.ok.injEq]
  obtain ⟨fb, ff, fh, fp⟩ := f
  obtain ⟨gb, gf, gh, gp⟩ := g
  simp only at hgh hgp hb hfor
  obtain rfl := hgh
  obtain rfl := hgp
  obtain rfl := hb.symm
  obtain rfl := hfor.symm
  unfold tailPart
  cases fh with
  | none =>
    cases fp with
    | none => simp [afterForAny]
    | some p =>
      have := proto_step ⟨gb, gf, none, none⟩ p rfl rfl
      simp only [List.append_nil] at this
      show parseLoop _ (s!!"proto" ++ '=' :: p) = _ ↔ _
      rw [this]
      simp
  | some h =>
    cases fp with
    | none =>
      have := writeAny_pair (g := ⟨gb, gf, none, none⟩) (f := ⟨gb, gf, some h, none⟩)
        (set := fun v => ⟨gb, gf, some v, none⟩) (get := fun f => f.host) tokh not_isFor_host
        (z := []) (.inl rfl) (by decide) (by intro v; simp [store]) (by simp) (fun g f s h => (loopAny_mono h).2.2.1) rfl
      rw [stripSemi_other (by simp), parseLoop_nil] at this
      simp only [List.append_nil] at this
      show parseLoop _ (s!!"host" ++ '=' :: h) = _ ↔ _
      rw [this]
      simp
    | some p =>
      have e : s!!";host=" ++ h ++ s!!";proto=" ++ p = ';' :: (s!!"host" ++ '=' :: (h ++ (';' :: (s!!"proto" ++ '=' :: p)))) := by
        simp
      simp only [e]
      have := writeAny_pair (g := ⟨gb, gf, none, none⟩) (f := ⟨gb, gf, some h, some p⟩)
        (set := fun v => ⟨gb, gf, some v, none⟩) (get := fun f => f.host) tokh not_isFor_host
        (z := ';' :: (s!!"proto" ++ '=' :: p)) (.inr ⟨_, rfl⟩) (by decide) (by intro v; simp [store]) (by simp) (fun g f s h => (loopAny_mono h).2.2.1) rfl
      rw [stripSemi_semi] at this
      show parseLoop _ (s!!"host" ++ '=' :: (h ++ (';' :: (s!!"proto" ++ '=' :: p)))) = _ ↔ _
      rw [this]
      have := proto_step ⟨gb, gf, some h, none⟩ p rfl rfl
      simp only [List.append_nil] at this
      rw [this]
      simp

theorem writeAny_fors {f : Forwarded} (vs : List Str) : ∀ {g : Forwarded}, vs ≠ [] →
    g.host = none → g.proto = none → f.by' = g.by' →
    f.forwardedFor = g.forwardedFor ++ vs →
    (parseLoop g (forPart vs ++ tailPart f.host f.proto) = .ok f ↔
      (∀ v ∈ vs, ForValueAny v) ∧ (∀ v ∈ f.host, Token v) ∧ (∀ v ∈ f.proto, Token v)) := by
  induction vs with
  | nil => intro g h; exact absurd rfl h
  | cons v vs ih =>
    intro g _ h1 h2 h3 h4
    rw [forPart_cons]
    have e : s!!"for" ++ '=' :: (formatValue v ++ (if vs = [] then [] else s!!", " ++ forPart vs)) ++
        tailPart f.host f.proto = s!!"for" ++ '=' :: (formatValue v ++ ((if vs = [] then [] else s!!", " ++ forPart vs) ++
        tailPart f.host f.proto)) := by simp
    rw [e]
    have hz : ForEnds ((if vs = [] then [] else s!!", " ++ forPart vs) ++ tailPart f.host f.proto) := by
      by_cases hv : vs = []
      · rw [if_pos hv]
        rcases tail_ends f.host f.proto with h | h
        · exact .inl h
        · exact .inr (.inl h)
      · rw [if_neg hv]
        exact .inr (.inr ⟨_, rfl⟩)
    rw [writeAny_for hz h4]
    by_cases hv : vs = []
    · subst hv
      rw [if_pos rfl, List.nil_append]
      rw [writeAny_tail (g := push g v) h1 h2 h3 (by rw [h4]; rfl)]
      simp
    · rw [if_neg hv]
      have hst : StartsFor (forPart vs ++ tailPart f.host f.proto) := by
        cases vs with
        | nil => exact absurd rfl hv
        | cons w ws =>
          rw [forPart_cons]
          exact ⟨s!!"for", _, by rw [List.append_assoc]; rfl, by decide⟩
      have htr : trimStart (' ' :: (forPart vs ++ tailPart f.host f.proto)) = forPart vs ++ tailPart f.host f.proto :=
        trimStart_startsFor (w := s!!" ") (by decide) hst
      have : afterForAny (push g v) (s!!", " ++ forPart vs ++ tailPart f.host f.proto) =
          parseLoop (push g v) (forPart vs ++ tailPart f.host f.proto) := by
        show afterForAny (push g v) (',' :: (' ' :: (forPart vs ++ tailPart f.host f.proto))) = _
        unfold afterForAny
        simp only
        rw [htr, if_pos hst]
      rw [this, ih (g := push g v) hv h1 h2 h3 (by rw [h4]; simp [push])]
      simp
      tauto

/-- Reading what was written. -/
theorem parseAny_headerValue (f : Forwarded) :
    parse (headerValue f) = .ok f ↔ ForwardedWFAny f := by
  have rest : ∀ (g : Forwarded), g.host = none → g.proto = none → f.by' = g.by' → g.forwardedFor = [] →
      (parseLoop g (forPart f.forwardedFor ++ tailPart f.host f.proto) = .ok f ↔
        (∀ v ∈ f.forwardedFor, ForValueAny v) ∧ (∀ v ∈ f.host, Token v) ∧ (∀ v ∈ f.proto, Token v) ∧
        (f.forwardedFor = [] → f.host = none ∧ f.proto = none)) := by
    intro g h1 h2 h3 h4
    by_cases hv : f.forwardedFor = []
    · rw [hv]
      have e : forPart [] = [] := rfl
      rw [e, List.nil_append]
      constructor
      · intro h
        have : f.host = none ∧ f.proto = none := by
          rcases tail_ends f.host f.proto with e | ⟨x, e⟩
          · cases hh : f.host <;> cases hp : f.proto <;> rw [hh, hp] at e <;> simp_all [tailPart]
          · exfalso
            rw [e] at h
            have hst : ¬ Straddles (';' :: x) := by
              intro hst
              rw [loopAny_straddles hst] at h
              cases h
            rw [loopAny_pair (by
              rintro ⟨k, r, hk, hf⟩
              have := isFor_length hf
              cases k with
              | nil => simp at this
              | cons c k =>
                have hk' : ';' = c := by
                  have := congrArg List.head? hk
                  simpa using this
                subst hk'
                have := (isFor_token hf).2 ';' (by simp)
                exact sep_not_tchar ';' (by simp) this) hst (by simp)] at h
            unfold parsePair at h
            rcases parseToken_cases (';' :: x) with ⟨t, r, e1, e2, _, _⟩ | ⟨e1, _⟩
            · obtain ⟨c, t', e3, e4⟩ := token_head (r := r) e2
              rw [← e1] at e3
              cases e3
              exact sep_not_tchar ';' (by simp) e4
            · rw [e1] at h; cases h
        rw [this.1, this.2]
        simp
      · rintro ⟨_, _, _, h⟩
        obtain ⟨hh, hp⟩ := h rfl
        rw [hh, hp]
        show parseLoop g [] = _
        rw [parseLoop_nil]
        obtain ⟨a, b, c, d⟩ := f
        obtain ⟨a', b', c', d'⟩ := g
        simp_all
    · rw [writeAny_fors f.forwardedFor hv h1 h2 h3 (by rw [h4]; rfl)]
      constructor
      · rintro ⟨a, b, c⟩; exact ⟨a, b, c, fun e => absurd e hv⟩
      · rintro ⟨a, b, c, _⟩; exact ⟨a, b, c⟩
  unfold parse
  rw [headerValue_eq]
  unfold ForwardedWFAny
  cases hb : f.by' with
  | none =>
    simp only [List.nil_append]
    rw [rest {} rfl rfl hb rfl]
    simp
  | some b =>
    have e : s!!"by=" ++ b ++ s!!";" ++ (forPart f.forwardedFor ++ tailPart f.host f.proto) =
        s!!"by" ++ '=' :: (b ++ ';' :: (forPart f.forwardedFor ++ tailPart f.host f.proto)) := by simp
    simp only [e]
    have tok : Token s!!"by" := ⟨by decide, fun c hc => by rw [← Mime.isToken_iff]; revert c; decide⟩
    rw [writeAny_pair (set := fun v => { by' := some v }) (get := fun f => f.by') tok not_isFor_by
      (.inr ⟨_, rfl⟩) (by decide) (by intro v; simp [store]) (by simp) (fun g f s h => (loopAny_mono h).2.1) hb,
      stripSemi_semi, rest _ rfl rfl hb rfl]
    simp
    tauto

end Forwarded

/-- **C48**, exactly when a `Forwarded` value is read back from the text written for it, ASCII or not: if
and only if `by`, `host` and `proto` are tokens, each `for` value is a token or a non-empty text of
characters that can be quoted, and there is some `for` value unless both `host` and `proto` are missing. -/
theorem C48_reads_back_all_partial (f : Forwarded) :
    Forwarded.parse f.headerValue = .ok f ↔ ForwardedWFAny f :=
  Forwarded.parseAny_headerValue f

example : Forwarded.parse (Forwarded.headerValue ⟨some s!!"p", [s!!"é", s!!"[::1]"], some s!!"h", none⟩) =
    .ok ⟨some s!!"p", [s!!"é", s!!"[::1]"], some s!!"h", none⟩ ∧
    Forwarded.parse (Forwarded.headerValue ⟨none, [s!!"aŜ"], none, none⟩) = .ok ⟨none, [s!!"a"], none, none⟩ := by
  decide +kernel

end HT
