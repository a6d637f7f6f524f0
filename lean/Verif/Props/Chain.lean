import Verif.Spec.Chain
import Verif.Props.Forwarded
import Verif.Props.Listed
import Verif.Props.Fields

/-!
C101: the Forwarded header in the form of RFC 7239.
-/

namespace HT

open Spec ParseUtils

namespace Forwarded

theorem escaped_unique {e v : Str} (h : Escaped e v) :
    ∀ {e' v' r r' : Str}, Escaped e' v' → e ++ '"' :: r = e' ++ '"' :: r' → e = e' ∧ v = v' ∧ r = r' := by
  induction h with
  | nil =>
    intro e' v' r r' h' he
    cases h' with
    | nil => cases he; exact ⟨rfl, rfl, rfl⟩
    | plain h1 _ _ => cases he; exact absurd rfl h1
    | pair _ => cases he
  | plain h1 h2 _ ih =>
    intro e' v' r r' h' he
    cases h' with
    | nil => cases he; exact absurd rfl h1
    | plain h3 h4 h5 =>
      injection he with e1 e2
      obtain ⟨rfl, rfl, rfl⟩ := ih h5 e2
      exact ⟨by rw [e1], by rw [e1], rfl⟩
    | pair _ => injection he with e1; exact absurd e1 h2
  | pair _ ih =>
    intro e' v' r r' h' he
    cases h' with
    | nil => cases he
    | plain h3 h4 h5 => injection he with e1; exact absurd e1.symm h4
    | pair h5 =>
      injection he with _ he
      injection he with e1 e2
      obtain ⟨rfl, rfl, rfl⟩ := ih h5 e2
      exact ⟨by rw [e1], by rw [e1], rfl⟩

theorem quoted_escaped {e v : Str} (h : QuotedText e v) : Escaped e v := by
  induction h with
  | nil => exact .nil
  | plain hc _ ih => exact .plain (by rintro rfl; exact not_qd_quote hc) (by rintro rfl; exact not_qd_backslash hc) ih
  | pair _ _ ih => exact .pair ih

theorem qd_bang : ¬ QdText '!' := by rintro (h | h | h | h) <;> revert h <;> decide

/-- For ASCII texts of the standard only the exclamation mark makes a difference. -/
theorem quoted_iff {e v : Str} (h : Escaped e v) (hv : ∀ c ∈ v, QuotedChar c) (ha : isAscii e = true) :
    QuotedText e v ↔ ¬ ∃ s w r, e = s ++ '!' :: r ∧ Escaped s w := by
  induction h with
  | nil => simp [QuotedText.nil]
  | @plain c s v h1 h2 h3 ih =>
    rw [isAscii_cons, Bool.and_eq_true] at ha
    have ih := ih (fun c hc => hv c (List.mem_cons_of_mem _ hc)) ha.2
    have hq : QdText c ↔ c ≠ '!' := by
      constructor
      · rintro hq rfl; exact qd_bang hq
      · intro hb
        rcases hv c List.mem_cons_self with h | ⟨h, -, h'⟩
        · exact .inl h
        · have hlt : c.toNat < 128 := by have := ha.1; unfold isAsciiC at this; simpa using this
          by_cases h32 : c.toNat = 32
          · exact .inr (.inl (Char.toNat_inj.mp h32))
          · have h33 : c.toNat ≠ 33 := fun h => hb (Char.toNat_inj.mp h)
            have h34 : c.toNat ≠ 34 := fun h => h1 (Char.toNat_inj.mp h)
            exact .inr (.inr (.inr ⟨by omega, by omega, h2⟩))
    constructor
    · intro hq'
      generalize he : c :: s = t at hq'
      generalize hw : c :: v = u at hq'
      cases hq' with
      | nil => cases he
      | plain a b =>
        injection he with e1 e2
        injection hw with w1 w2
        subst e1 e2 w2
        rintro ⟨s', w, r, e1, e2⟩
        cases e2 with
        | nil => injection e1 with e1; exact hq.mp a e1
        | plain _ _ e3 => injection e1 with _ e1; exact ih.mp b ⟨_, _, r, e1, e3⟩
        | pair _ => injection e1 with e1; exact h2 e1
      | pair _ _ => injection he with e1; exact absurd e1 h2
    · intro hn
      refine .plain (hq.mpr ?_) (ih.mpr ?_)
      · rintro rfl; exact hn ⟨[], [], s, rfl, .nil⟩
      · rintro ⟨s', w, r, rfl, e2⟩
        exact hn ⟨c :: s', c :: w, r, rfl, .plain h1 h2 e2⟩
  | @pair c s v h3 ih =>
    rw [isAscii_cons, isAscii_cons, Bool.and_eq_true, Bool.and_eq_true] at ha
    have ih := ih (fun c hc => hv c (List.mem_cons_of_mem _ hc)) ha.2.2
    have hesc : Escapable c := by
      rcases hv c List.mem_cons_self with h | ⟨h, -, h'⟩
      · exact .inl h
      · have hlt : c.toNat < 128 := by have := ha.2.1; unfold isAsciiC at this; simpa using this
        exact .inr ⟨h, by omega⟩
    constructor
    · intro hq'
      have hq : QuotedText s v := by
        generalize he : '\\' :: c :: s = t at hq'
        generalize hw : c :: v = u at hq'
        cases hq' with
        | nil => cases he
        | plain a b => injection he with e1; subst e1; exact absurd a not_qd_backslash
        | pair _ b =>
          injection he with _ he
          injection he with e1 e2
          injection hw with w1 w2
          subst e2 w2
          exact b
      rintro ⟨s', w, r, e1, e2⟩
      cases e2 with
      | nil => injection e1 with e1; revert e1; decide
      | plain _ hb _ => injection e1 with e1; exact hb e1.symm
      | pair e3 =>
        injection e1 with _ e1
        injection e1 with _ e1
        exact ih.mp hq ⟨_, _, r, e1, e3⟩
    · intro hn
      refine .pair hesc (ih.mpr ?_)
      rintro ⟨s', w, r, rfl, e2⟩
      exact hn ⟨'\\' :: c :: s', c :: w, r, rfl, .pair e2⟩

theorem bang_append {s r e : Str} (h : s ++ '!' :: r = e ++ ['"']) :
    ∃ r', e = s ++ '!' :: r' := by
  rcases List.eq_nil_or_concat r with rfl | ⟨r', x, rfl⟩
  · have := congrArg List.getLast? h
    rw [List.getLast?_concat] at this
    simp at this
  · refine ⟨r', ?_⟩
    have h' : (s ++ '!' :: r') ++ [x] = e ++ ['"'] := by simpa using h
    exact ((List.append_inj' h' rfl).1).symm

theorem paramText_iff {raw v : Str} (h : ValueText raw v) (ha : isAscii raw = true) : ParamText raw v ↔ ¬ BareBang raw := by
  rcases h with ⟨rfl, ht⟩ | ⟨e, rfl, he, hv⟩
  · refine ⟨fun _ => ?_, fun _ => .inl ⟨rfl, ht⟩⟩
    rintro ⟨s, v, r, rfl, -⟩
    exact not_token_quote _ ht
  · have ha' : isAscii e = true := by
      rw [isAscii_cons, isAscii_append, Bool.and_eq_true, Bool.and_eq_true] at ha
      exact ha.2.1
    have hq := quoted_iff he hv ha'
    constructor
    · rintro (⟨hr, ht⟩ | ⟨e', h1, h2⟩)
      · intro _
        rw [← hr] at ht
        exact not_token_quote _ ht
      · have : e = e' := by simpa using h1
        subst this
        rintro ⟨s, w, r, h3, h4⟩
        injection h3 with _ h3
        obtain ⟨r', h5⟩ := bang_append h3.symm
        exact hq.mp h2 ⟨s, w, r', h5, h4⟩
    · intro hn
      refine .inr ⟨e, rfl, hq.mpr ?_⟩
      rintro ⟨s, w, r, rfl, h4⟩
      exact hn ⟨s, w, r ++ ['"'], by simp, h4⟩


/-! ### reading one pair -/

theorem value_bang {raw v r : Str} (h : ValueText raw v) (ha : isAscii (raw ++ r) = true) (hb : BareBang raw) :
    ∃ x, parseValue (raw ++ r) = .ok (none, x) := by
  have ha' : isAscii raw = true := by
    rw [isAscii_append, Bool.and_eq_true] at ha
    exact ha.1
  have hn : ¬ ParamText raw v := fun hp => (paramText_iff h ha').mp hp hb
  rcases parseValue_cases ha with ⟨raw', v', r', h1, h2, -, -⟩ | hx
  · exfalso
    rcases h with ⟨rfl, ht⟩ | ⟨e, rfl, he, hv⟩
    · exact hn (.inl ⟨rfl, ht⟩)
    · rcases h2 with ⟨rfl, ht⟩ | ⟨e', rfl, he'⟩
      · cases raw' with
        | nil => exact ht.1 rfl
        | cons c t =>
          injection h1 with h1 _
          subst h1
          exact not_token_quote _ ht
      · have h1' : e ++ '"' :: r = e' ++ '"' :: r' := by simpa using h1
        obtain ⟨rfl, rfl, rfl⟩ := escaped_unique he (quoted_escaped he') h1'
        exact hn (.inr ⟨e, rfl, he'⟩)
  · exact hx

theorem loop_bang {f : Forwarded} {k raw v r : Str} (hk : Token k) (h : ValueText raw v)
    (ha : isAscii (k ++ '=' :: (raw ++ r)) = true) (hb : BareBang raw) : parseLoop f (k ++ '=' :: (raw ++ r)) = .err 500 := by
  obtain ⟨x, hx⟩ := value_bang h (isAscii_right_cons ha) hb
  by_cases hf : IsFor k
  · rw [parseLoop_for ha hf, hx]; rfl
  · rw [parseLoop_pair ha (not_startsFor hk hf) (by simp)]
    have : ∀ c, ('=' :: (raw ++ r)).head? = some c → ¬ TChar c := by
      intro c hc; cases hc; exact sep_not_tchar _ (by decide)
    unfold parsePair
    rw [parseToken_of hk this]
    simp only
    rw [hx]
    rfl

theorem loop_bad {f : Forwarded} {z : Str} (ha : isAscii z = true) (hn : z ≠ []) (hz : ∀ c, z.head? = some c → ¬ TChar c) :
    parseLoop f z = .err 500 := by
  have hs : ¬ StartsFor z := fun h => by
    obtain ⟨c, t, rfl, hc, -⟩ := startsFor_head h
    exact hz c rfl hc
  rw [parseLoop_pair ha hs hn]
  rcases parsePair_cases (f := f) ha with ⟨k, raw, v, r, rfl, -, hk, -⟩ | h
  · obtain ⟨c, t, h1, hc⟩ := token_head (r := '=' :: (raw ++ r)) hk
    exact absurd hc (hz c (by rw [h1]; rfl))
  · rw [h]; rfl

/-! ### reading the pairs of an element -/

/-- The continuation after the last pair. -/
def Fin (p : Option FwdPair) (z : Str) (g f' : Forwarded) : Prop :=
  (ForPair p ∧ afterFor g z = .ok f') ∨ (¬ ForPair p ∧ z = [] ∧ g = f')

theorem runPairs_append (f : Forwarded) (a b : List (Str × Str)) :
    runPairs f (a ++ b) = (runPairs f a).bind fun g => runPairs g b := by
  induction a generalizing f with
  | nil => rfl
  | cons p a ih =>
    obtain ⟨k, v⟩ := p
    show runPairs f ((k, v) :: (a ++ b)) = (runPairs f ((k, v) :: a)).bind _
    by_cases hf : IsFor k
    · rw [runPairs_for hf, runPairs_for hf, ih]
    · rw [runPairs_other hf, runPairs_other hf]
      cases store f k v with
      | ok g => exact ih g
      | err _ => rfl
      | panic => rfl

/-- The blanks or the comma that may come after the pairs. -/
def After (z : Str) : Prop := ∀ c, z.head? = some c → ¬ TChar c ∧ c ≠ ';'

def given (ps : List (Option FwdPair)) : List (Str × Str) := (ps.filterMap id).map fun p => (p.name, p.value)

theorem given_some (p : FwdPair) (ps : List (Option FwdPair)) : given (some p :: ps) = (p.name, p.value) :: given ps := rfl
theorem given_none (ps : List (Option FwdPair)) : given (none :: ps) = given ps := rfl

theorem pairs_read {z : Str} (hz : After z) (ps : List (Option FwdPair)) (hne : ps ≠ [])
    (hl : ∀ p, some p ∈ ps → Token p.name ∧ ValueText p.raw p.value) (f f' : Forwarded)
    (ha : isAscii (fwdPairsText ps ++ z) = true) :
    parseLoop f (fwdPairsText ps ++ z) = .ok f' ↔
      none ∉ ps.dropLast ∧ (∀ p, some p ∈ ps → ¬ BareBang p.raw) ∧
      ∃ g p, runPairs f (given ps) = .ok g ∧ ps.getLast? = some p ∧ Fin p z g f' := by
  induction ps generalizing f with
  | nil => exact absurd rfl hne
  | cons p ps ih =>
    cases ps with
    | nil =>
      have e : fwdPairsText [p] = fwdPairText p := rfl
      rw [e] at ha ⊢
      cases p with
      | none =>
        show parseLoop f ([] ++ z) = _ ↔ _
        rw [List.nil_append]
        have : (none ∉ ([none] : List (Option FwdPair)).dropLast ∧ (∀ p, some p ∈ ([none] : List (Option FwdPair)) → ¬ BareBang p.raw) ∧
            ∃ g p, runPairs f (given [none]) = .ok g ∧ ([none] : List (Option FwdPair)).getLast? = some p ∧ Fin p z g f') ↔ z = [] ∧ f = f' := by
          constructor
          · rintro ⟨-, -, g, p, h1, h2, h3⟩
            cases h1
            cases h2
            rcases h3 with ⟨h3, -⟩ | ⟨-, h3⟩
            · exact h3.elim
            · exact h3
          · rintro ⟨h1, rfl⟩
            exact ⟨by simp, by simp, f, none, rfl, rfl, .inr ⟨id, h1, rfl⟩⟩
        rw [this]
        by_cases hzn : z = []
        · subst hzn
          rw [parseLoop_nil]
          simp
        · rw [loop_bad (z := z) ha hzn fun c hc => (hz c hc).1]
          simp [hzn]
      | some p =>
        obtain ⟨hk, hv⟩ := hl p List.mem_cons_self
        have e : fwdPairText (some p) ++ z = p.name ++ '=' :: (p.raw ++ z) := by simp [fwdPairText]
        rw [e] at ha ⊢
        have har : isAscii p.raw = true := by
          have := isAscii_right_cons ha
          rw [isAscii_append, Bool.and_eq_true] at this
          exact this.1
        by_cases hb : BareBang p.raw
        · rw [loop_bang hk hv ha hb]
          refine ⟨fun h => (by cases h), fun h => absurd hb (h.2.1 p List.mem_cons_self)⟩
        · have hp := (paramText_iff hv har).mpr hb
          have hs : (none ∉ [some p].dropLast ∧ (∀ q, some q ∈ [some p] → ¬ BareBang q.raw) ∧
              ∃ g q, runPairs f (given [some p]) = .ok g ∧ [some p].getLast? = some q ∧ Fin q z g f') ↔
              ∃ g, runPairs f [(p.name, p.value)] = .ok g ∧ Fin (some p) z g f' := by
            constructor
            · rintro ⟨-, -, g, q, h1, h2, h3⟩
              cases h2
              exact ⟨g, h1, h3⟩
            · rintro ⟨g, h1, h3⟩
              refine ⟨by simp, ?_, g, some p, h1, rfl, h3⟩
              intro q hq
              simp only [List.mem_singleton, Option.some.injEq] at hq
              exact hq ▸ hb
          rw [hs]
          by_cases hf : IsFor p.name
          · rw [parseLoop_for_of ha hf hp fun _ c hc => (hz c hc).1, runPairs_for hf]
            unfold Fin
            have : ForPair (some p) := hf
            simp [this, runPairs]
          · rw [parseLoop_other ha hk hf hp fun _ c hc => (hz c hc).1, runPairs_other hf, stripSemi_other fun c hc => (hz c hc).2]
            unfold Fin
            have : ¬ ForPair (some p) := hf
            cases hst : store f p.name p.value with
            | ok g =>
              simp only [Res.bind_ok, runPairs, Res.ok.injEq, this, false_and, not_false_eq_true, true_and, false_or, exists_eq_left']
              by_cases hzn : z = []
              · subst hzn
                rw [parseLoop_nil]
                simp
              · rw [loop_bad _ hzn fun c hc => (hz c hc).1]
                · simp [hzn]
                · exact isAscii_of_append_right (isAscii_right_cons ha)
            | err s => simp
            | panic => simp
    | cons q ps =>
      have e : fwdPairsText (p :: q :: ps) ++ z = fwdPairText p ++ ';' :: (fwdPairsText (q :: ps) ++ z) := by
        simp [fwdPairsText, join]
      rw [e] at ha ⊢
      have hd : (p :: q :: ps).dropLast = p :: (q :: ps).dropLast := rfl
      have hg : (p :: q :: ps).getLast? = (q :: ps).getLast? := by simp
      cases p with
      | none =>
        rw [show fwdPairText none ++ ';' :: (fwdPairsText (q :: ps) ++ z) = ';' :: (fwdPairsText (q :: ps) ++ z) from rfl] at ha ⊢
        rw [loop_bad ha (by simp) fun c hc => by cases hc; exact sep_not_tchar _ (by decide)]
        refine ⟨fun h => (by cases h), fun h => absurd List.mem_cons_self (hd ▸ h.1)⟩
      | some p =>
        obtain ⟨hk, hv⟩ := hl p List.mem_cons_self
        have e : fwdPairText (some p) ++ ';' :: (fwdPairsText (q :: ps) ++ z) =
            p.name ++ '=' :: (p.raw ++ ';' :: (fwdPairsText (q :: ps) ++ z)) := by simp [fwdPairText]
        rw [e] at ha ⊢
        have har := isAscii_right_cons ha
        rw [isAscii_append, isAscii_cons, Bool.and_eq_true, Bool.and_eq_true] at har
        by_cases hb : BareBang p.raw
        · rw [loop_bang hk hv ha hb]
          refine ⟨fun h => (by cases h), fun h => absurd hb (h.2.1 p List.mem_cons_self)⟩
        · have hp := (paramText_iff hv har.1).mpr hb
          have ih := fun f => ih (by simp) (fun p hp => hl p (List.mem_cons_of_mem _ hp)) f har.2.2
          have hsplit : ∀ P : Prop, (none ∉ (some p :: q :: ps).dropLast ∧ (∀ r, some r ∈ some p :: q :: ps → ¬ BareBang r.raw) ∧ P) ↔
              (none ∉ (q :: ps).dropLast ∧ (∀ r, some r ∈ q :: ps → ¬ BareBang r.raw) ∧ P) := by
            intro P
            rw [hd]
            constructor
            · rintro ⟨h1, h2, h3⟩
              exact ⟨fun hm => h1 (List.mem_cons_of_mem _ hm), fun r hr => h2 r (List.mem_cons_of_mem _ hr), h3⟩
            · rintro ⟨h1, h2, h3⟩
              refine ⟨by simpa using h1, fun r hr => ?_, h3⟩
              rcases List.mem_cons.mp hr with hr | hr
              · cases hr; exact hb
              · exact h2 r hr
          rw [hsplit, given_some, hg]
          by_cases hf : IsFor p.name
          · rw [parseLoop_for_of ha hf hp semi_head, runPairs_for hf]
            exact ih _
          · rw [parseLoop_other ha hk hf hp semi_head, runPairs_other hf, stripSemi_semi]
            cases hst : store f p.name p.value with
            | ok g => exact ih g
            | err s => simp
            | panic => simp


/-! ### reading the elements -/

/-- What comes after an element. -/
def tailText : List FwdElement → Str
  | [] => []
  | e :: es => ',' :: chainText (e :: es)

theorem chainText_cons (e : FwdElement) (es : List FwdElement) :
    chainText (e :: es) = e.before ++ (fwdPairsText e.pairs ++ (e.after ++ tailText es)) := by
  cases es with
  | nil => simp [chainText, join, tailText]
  | cons e' es => simp [chainText, join, tailText]

theorem ows_head {w z : Str} (hw : Ows w) (hz : After z) : After (w ++ z) := by
  intro c hc
  cases w with
  | nil => exact hz c hc
  | cons x w =>
    cases hc
    rcases (hw _ List.mem_cons_self : c = ' ' ∨ c = '\t') with rfl | rfl
    · exact ⟨by rw [← Mime.isToken_iff]; decide, by decide⟩
    · exact ⟨by rw [← Mime.isToken_iff]; decide, by decide⟩

theorem tail_after (es : List FwdElement) : After (tailText es) := by
  cases es with
  | nil => intro c hc; cases hc
  | cons e es => intro c hc; cases hc; exact ⟨sep_not_tchar _ (by decide), by decide⟩

theorem trimStart_comma {c : Char} (hc : isWs c = false) {w r : Str} (hw : ∀ x ∈ w, isWs x = true) :
    trimStart (w ++ c :: r) = c :: r := by
  rw [trimStart_ws_append hw]
  exact trimStart_of_head (by intro d hd; cases hd; exact hc)

theorem starts_iff {e : FwdElement} (he : LegalElement e) {T : Str} (hT : T = [] ∨ ∃ r, T = ',' :: r) :
    StartsFor (trimStart (e.before ++ (fwdPairsText e.pairs ++ (e.after ++ T)))) ↔ ∃ p, e.pairs.head? = some p ∧ ForPair p := by
  have hb := ows_ws he.before
  have no : ∀ {c : Char} {r : Str}, ¬ TChar c → ¬ StartsFor (c :: r) := fun hc h => by
    obtain ⟨d, t, h1, h2, -⟩ := startsFor_head h
    cases h1
    exact hc h2
  cases hp : e.pairs with
  | nil => exact absurd hp he.some
  | cons p ps =>
    simp only [List.head?_cons, Option.some.injEq, exists_eq_left']
    cases p with
    | none =>
      refine ⟨fun h => ?_, fun h => h.elim⟩
      exfalso
      cases ps with
      | nil =>
        rw [show fwdPairsText [none] = [] from rfl, List.nil_append, ← List.append_assoc] at h
        rcases hT with rfl | ⟨r, rfl⟩
        · have : trimStart (e.before ++ e.after ++ []) = [] := by
            rw [trimStart_ws_append]
            · rfl
            · intro c hc
              rcases List.mem_append.mp hc with hc | hc
              · exact hb c hc
              · exact ows_ws he.after c hc
          rw [this] at h
          obtain ⟨c, t, h1, -⟩ := startsFor_head h
          cases h1
        · rw [trimStart_comma (by decide)] at h
          · exact no (sep_not_tchar _ (by decide)) h
          · intro c hc
            rcases List.mem_append.mp hc with hc | hc
            · exact hb c hc
            · exact ows_ws he.after c hc
      | cons q ps =>
        have : fwdPairsText (none :: q :: ps) = ';' :: fwdPairsText (q :: ps) := by simp [fwdPairsText, join, fwdPairText]
        rw [this, List.cons_append, trimStart_comma (by decide) hb] at h
        exact no (sep_not_tchar _ (by decide)) h
    | some p =>
      obtain ⟨hk, -⟩ := he.pair p (by rw [hp]; exact List.mem_cons_self)
      obtain ⟨r, hr⟩ : ∃ r, fwdPairsText (some p :: ps) ++ (e.after ++ T) = p.name ++ '=' :: r := by
        cases ps with
        | nil => exact ⟨p.raw ++ (e.after ++ T), by simp [fwdPairsText, join, fwdPairText]⟩
        | cons q ps => exact ⟨p.raw ++ ';' :: (fwdPairsText (q :: ps) ++ (e.after ++ T)), by simp [fwdPairsText, join, fwdPairText]⟩
      rw [hr]
      have ht : trimStart (e.before ++ (p.name ++ '=' :: r)) = p.name ++ '=' :: r := by
        rw [trimStart_ws_append hb]
        refine trimStart_of_head fun c hc => ?_
        rw [List.head?_append_of_ne_nil _ hk.1] at hc
        exact (tchar_not (hk.2 c (List.mem_of_mem_head? (by simp [hc])))).1
      rw [ht]
      constructor
      · intro h
        by_contra hf
        exact not_startsFor hk hf h
      · exact fun h => ⟨p.name, r, rfl, h⟩

theorem afterFor_comma (g : Forwarded) (r : Str) : (StartsFor (trimStart r) → afterFor g (',' :: r) = parseLoop g (trimStart r)) ∧
    (¬ StartsFor (trimStart r) → ∀ f', afterFor g (',' :: r) ≠ .ok f') := by
  refine ⟨fun h => ?_, fun h f' => ?_⟩
  · simp [afterFor, h]
  · simp only [afterFor, h, if_false]; split <;> simp

theorem given_eq (e : FwdElement) : given e.pairs = e.given := rfl

theorem chain_read (es : List FwdElement) : ∀ (e : FwdElement) (f f' : Forwarded), (∀ x ∈ e :: es, LegalElement x) →
    isAscii (fwdPairsText e.pairs ++ (e.after ++ tailText es)) = true →
    (parseLoop f (fwdPairsText e.pairs ++ (e.after ++ tailText es)) = .ok f' ↔
      (∀ x ∈ e :: es, x.after = []) ∧ (∀ x ∈ e :: es, none ∉ x.pairs.dropLast) ∧
      (∀ x ∈ e :: es, ∀ p, some p ∈ x.pairs → ¬ BareBang p.raw) ∧ (e :: es).IsChain ForMeets ∧
      runPairs f (chainPairs (e :: es)) = .ok f') := by
  induction es with
  | nil =>
    intro e f f' hl ha
    have he := hl e List.mem_cons_self
    rw [pairs_read (ows_head he.after (tail_after [])) e.pairs he.some he.pair f f' ha]
    simp only [List.mem_singleton, forall_eq]
    have hfin : ∀ p g, Fin p (e.after ++ tailText []) g f' ↔ e.after = [] ∧ g = f' := by
      intro p g
      show Fin p (e.after ++ []) g f' ↔ _
      rw [List.append_nil]
      have hw := he.after
      unfold Fin
      by_cases hp : ForPair p
      · cases hea : e.after with
        | nil => simp [hp, afterFor]
        | cons c w =>
          rw [hea] at hw
          rcases (hw c List.mem_cons_self : c = ' ' ∨ c = '\t') with rfl | rfl <;> simp [hp, afterFor]
      · simp [hp]
    have hc : chainPairs [e] = given e.pairs := by simp [chainPairs, given_eq]
    rw [hc]
    constructor
    · rintro ⟨h1, h2, g, p, h3, -, h4⟩
      obtain ⟨h5, rfl⟩ := (hfin p g).mp h4
      exact ⟨h5, h1, h2, .singleton _, h3⟩
    · rintro ⟨h5, h1, h2, -, h3⟩
      obtain ⟨p, hp⟩ : ∃ p, e.pairs.getLast? = some p := by
        cases h : e.pairs.getLast? with
        | none => exact absurd (List.getLast?_eq_none_iff.mp h) he.some
        | some p => exact ⟨p, rfl⟩
      exact ⟨h1, h2, f', p, h3, hp, (hfin p f').mpr ⟨h5, rfl⟩⟩
  | cons e' es ih =>
    intro e f f' hl ha
    have he := hl e List.mem_cons_self
    have he' := hl e' (List.mem_cons_of_mem _ List.mem_cons_self)
    rw [pairs_read (ows_head he.after (tail_after (e' :: es))) e.pairs he.some he.pair f f' ha]
    have hat : isAscii (fwdPairsText e'.pairs ++ (e'.after ++ tailText es)) = true := by
      have h1 := isAscii_of_append_right (isAscii_of_append_right ha)
      have h2 := isAscii_right_cons (a := []) h1
      rw [chainText_cons] at h2
      exact isAscii_of_append_right h2
    have ih := fun g => ih e' g f' (fun x hx => hl x (List.mem_cons_of_mem _ hx)) hat
    have hst : StartsFor (trimStart (chainText (e' :: es))) ↔ ∃ p, e'.pairs.head? = some p ∧ ForPair p := by
      rw [chainText_cons]
      refine starts_iff he' ?_
      cases es with
      | nil => exact .inl rfl
      | cons x es => exact .inr ⟨_, rfl⟩
    have hfin : ∀ p g, Fin p (e.after ++ tailText (e' :: es)) g f' ↔ e.after = [] ∧ ForPair p ∧
        (∃ p, e'.pairs.head? = some p ∧ ForPair p) ∧ parseLoop g (fwdPairsText e'.pairs ++ (e'.after ++ tailText es)) = .ok f' := by
      intro p g
      unfold Fin
      have hne : e.after ++ tailText (e' :: es) ≠ [] := by simp [tailText]
      have hw := he.after
      by_cases hp : ForPair p
      · simp only [hp, true_and, not_true_eq_false, false_and, or_false]
        cases hea : e.after with
        | nil =>
          show afterFor g (',' :: chainText (e' :: es)) = .ok f' ↔ _
          by_cases hs : ∃ p, e'.pairs.head? = some p ∧ ForPair p
          · rw [(afterFor_comma g _).1 (hst.mpr hs)]
            have htr : trimStart (chainText (e' :: es)) = fwdPairsText e'.pairs ++ (e'.after ++ tailText es) := by
              have h1 := hst.mpr hs
              rw [chainText_cons, trimStart_ws_append (ows_ws he'.before)] at h1 ⊢
              obtain ⟨p, hp1, hp2⟩ := hs
              cases p with
              | none => exact hp2.elim
              | some p =>
                refine trimStart_of_head fun c hc => ?_
                have hmem : some p ∈ e'.pairs := List.mem_of_mem_head? (by simp [hp1])
                have hk := (he'.pair p hmem).1
                cases hps : e'.pairs with
                | nil => rw [hps] at hp1; cases hp1
                | cons q qs =>
                  rw [hps] at hp1 hc
                  cases hp1
                  have : ∃ r, fwdPairsText (some p :: qs) = p.name ++ r := by
                    cases qs with
                    | nil => exact ⟨_, rfl⟩
                    | cons y ys => exact ⟨'=' :: p.raw ++ ';' :: fwdPairsText (y :: ys), by simp [fwdPairsText, join, fwdPairText]⟩
                  obtain ⟨r, hr⟩ := this
                  rw [hr, List.append_assoc, List.head?_append_of_ne_nil _ hk.1] at hc
                  exact (tchar_not (hk.2 c (List.mem_of_mem_head? (by simp [hc])))).1
            rw [htr]
            simp [hs]
          · have := (afterFor_comma g _).2 (fun h => hs (hst.mp h)) f'
            simp [hs, this]
        | cons c w =>
          rw [hea] at hw
          rcases (hw c List.mem_cons_self : c = ' ' ∨ c = '\t') with rfl | rfl <;> simp [afterFor]
      · simp [hp, hne]
    have hc : chainPairs (e :: e' :: es) = given e.pairs ++ chainPairs (e' :: es) := rfl
    rw [hc, runPairs_append, List.isChain_cons_cons]
    constructor
    · rintro ⟨h1, h2, g, p, h3, h4, h5⟩
      obtain ⟨h6, h7, h8, h9⟩ := (hfin p g).mp h5
      obtain ⟨i1, i2, i3, i4, i5⟩ := (ih g).mp h9
      refine ⟨?_, ?_, ?_, ⟨⟨⟨p, h4, h7⟩, h8⟩, i4⟩, by rw [h3]; exact i5⟩
      · exact List.forall_mem_cons.mpr ⟨h6, i1⟩
      · exact List.forall_mem_cons.mpr ⟨h1, i2⟩
      · exact List.forall_mem_cons.mpr ⟨h2, i3⟩
    · rintro ⟨h1, h2, h3, ⟨⟨⟨p, h4, h7⟩, h8⟩, h5⟩, h6⟩
      rw [Res.bind_eq_ok_iff] at h6
      obtain ⟨g, h9, h10⟩ := h6
      obtain ⟨a1, a2⟩ := List.forall_mem_cons.mp h1
      obtain ⟨b1, b2⟩ := List.forall_mem_cons.mp h2
      obtain ⟨c1, c2⟩ := List.forall_mem_cons.mp h3
      exact ⟨b1, c1, g, p, h9, h4, (hfin p g).mpr ⟨a1, h7, h8, (ih g).mpr ⟨a2, b2, c2, h5, h10⟩⟩⟩

end Forwarded

/-- Exactly these values of the standard are read, and what is read then. -/
theorem C101_reads_partial {es : List FwdElement} (hl : LegalChain es) (ha : Ascii (chainText es)) (f : Forwarded) :
    Forwarded.parse (chainText es) = .ok f ↔ PlainChain es ∧ AmountsTo (chainPairs es) f := by
  have ha := (spec_ascii_iff _).mp ha
  cases es with
  | nil => exact absurd rfl hl.1
  | cons e es =>
    rw [← Forwarded.amounts_iff]
    unfold Forwarded.parse
    rw [Forwarded.chainText_cons] at ha ⊢
    by_cases hb : e.before = []
    · rw [hb, List.nil_append] at ha ⊢
      rw [Forwarded.chain_read es e {} f hl.2 ha]
      constructor
      · rintro ⟨h1, h2, h3, h4, h5⟩
        exact ⟨⟨fun x hx => (by cases hx; exact hb), h1, h2, h3, h4⟩, h5⟩
      · rintro ⟨⟨-, h1, h2, h3, h4⟩, h5⟩
        exact ⟨h1, h2, h3, h4, h5⟩
    · rw [Forwarded.loop_bad ha (by simp [hb])]
      · exact ⟨fun h => (by cases h), fun h => absurd (h.1.first e rfl) hb⟩
      · intro c hc
        rw [List.head?_append_of_ne_nil _ hb] at hc
        have := (hl.2 e List.mem_cons_self).before c (List.mem_of_mem_head? (by simp [hc]))
        rcases (this : c = ' ' ∨ c = '\t') with rfl | rfl <;> (rw [← Mime.isToken_iff]; decide)


example : LegalChain [⟨[], [some ⟨s!!"for", s!!"a", s!!"a"⟩], []⟩] ∧ PlainChain [⟨[], [some ⟨s!!"for", s!!"a", s!!"a"⟩], []⟩] ∧
    chainText [⟨[], [some ⟨s!!"for", s!!"a", s!!"a"⟩], []⟩] = s!!"for=a" ∧
    Forwarded.parse s!!"for=a" = .ok { forwardedFor := [s!!"a"] } := by
  have tok : ∀ {t : Str}, (t ≠ [] ∧ ∀ c ∈ t, Mime.isToken c = true) → Token t := fun h => ⟨h.1, fun c hc => (Mime.isToken_iff c).mp (h.2 c hc)⟩
  refine ⟨⟨by simp, fun e he => ?_⟩, ?_, by decide, by decide +kernel⟩
  · rw [List.mem_singleton.mp he]
    refine ⟨by simp [Ows], by simp [Ows], by simp, fun p hp => ?_, by simp [FwdElement.given]⟩
    have hp : p = ⟨s!!"for", s!!"a", s!!"a"⟩ := by simpa using hp
    subst hp
    exact ⟨tok (by decide), .inl ⟨rfl, tok (by decide)⟩⟩
  · refine ⟨by simp, by simp, by simp, fun e he p hp => ?_, .singleton _⟩
    rw [List.mem_singleton.mp he] at hp
    have hp : p = ⟨s!!"for", s!!"a", s!!"a"⟩ := by simpa using hp
    subst hp
    rintro ⟨s, v, r, h, -⟩
    cases h

theorem valuesOf_eq_iff (n : Str) (hn : lower n = n) (ps : List (Str × Str)) :
    valuesOf n ps = (ps.filter fun p => lower p.1 = n).map (·.2) ↔ ∀ p ∈ ps, lower p.1 = n → p.1 = n := by
  have key : (valuesOf n ps).length ≤ ((ps.filter fun p => lower p.1 = n).map (·.2)).length ∧
      ((valuesOf n ps).length = ((ps.filter fun p => lower p.1 = n).map (·.2)).length → ∀ p ∈ ps, lower p.1 = n → p.1 = n) := by
    induction ps with
    | nil => simp [valuesOf]
    | cons p ps ih =>
      rw [Forwarded.valuesOf_cons]
      by_cases h1 : p.1 = n
      · have h2 : lower p.1 = n := by rw [h1, hn]
        rw [if_pos h1, List.filter_cons_of_pos (by simpa using h2)]
        simp only [List.map_cons, List.length_cons]
        refine ⟨by omega, fun h q hq hl => ?_⟩
        rcases List.mem_cons.mp hq with rfl | hq
        · exact h1
        · exact ih.2 (by omega) q hq hl
      · rw [if_neg h1]
        by_cases h2 : lower p.1 = n
        · rw [List.filter_cons_of_pos (by simpa using h2)]
          simp only [List.map_cons, List.length_cons]
          exact ⟨by omega, fun h => absurd h (by omega)⟩
        · rw [List.filter_cons_of_neg (by simpa using h2)]
          refine ⟨ih.1, fun h q hq hl => ?_⟩
          rcases List.mem_cons.mp hq with rfl | hq
          · exact absurd hl h2
          · exact ih.2 h q hq hl
  constructor
  · exact fun h => key.2 (by rw [h])
  · intro h
    unfold valuesOf
    congr 1
    apply List.filter_congr
    intro p hp
    have : p.1 = n ↔ lower p.1 = n := ⟨fun e => by rw [e, hn], h p hp⟩
    simp [this]

theorem forwarded_first (v6 : Str → Option Str) {h : Headers} {t : Str} {ts : List Str} (hg : h.get s!!"forwarded" = some (t :: ts)) :
    Forwarded.fromHeaders v6 h = (Forwarded.parse t).map some := (C50_fallback v6 h).1 t ts hg

theorem forwarded_ok (v6 : Str → Option Str) {h : Headers} {t : Str} {ts : List Str} (hg : h.get s!!"forwarded" = some (t :: ts))
    (f : Forwarded) : Forwarded.fromHeaders v6 h = .ok (some f) ↔ Forwarded.parse t = .ok f := by
  rw [forwarded_first v6 hg]
  cases Forwarded.parse t <;> simp

/-- A value that has a meaning is read with it exactly if it is plain and the names are in lower case. -/
theorem C101_meaning_partial (v6 : Str → Option Str) {h : Headers} {es : List FwdElement} {f : Forwarded} (hl : LegalChain es)
    (ha : Ascii (chainText es)) (hm : ChainMeans es f) (hg : h.get s!!"forwarded" = some [chainText es]) :
    Forwarded.fromHeaders v6 h = .ok (some f) ↔ PlainChain es ∧ LowerNames es := by
  rw [forwarded_ok v6 hg, C101_reads_partial hl ha]
  refine and_congr_right fun _ => ?_
  obtain ⟨m1, m2, m3, m4⟩ := hm
  unfold AmountsTo
  rw [m2, m3, m4]
  unfold paramValues at *
  rw [valuesOf_eq_iff _ (by decide), valuesOf_eq_iff _ (by decide), valuesOf_eq_iff _ (by decide)]
  constructor
  · rintro ⟨-, h1, h2, h3⟩ p hp hn
    simp only [List.mem_cons, List.not_mem_nil, or_false] at hn
    rcases hn with hn | hn | hn
    · rw [hn, h1 p hp hn]
    · rw [hn, h2 p hp hn]
    · rw [hn, h3 p hp hn]
  · intro hlow
    refine ⟨m1, fun p hp hn => ?_, fun p hp hn => ?_, fun p hp hn => ?_⟩
    · rw [← hlow p hp (by rw [hn]; simp), hn]
    · rw [← hlow p hp (by rw [hn]; simp), hn]
    · rw [← hlow p hp (by rw [hn]; simp), hn]

/-- A pair whose value is written as a token. -/
def tokenPair (k v : Str) : Option FwdPair := some ⟨k, v, v⟩

theorem legal_tokens {w : Str} {kvs : List (Str × Str)} (hw : Ows w) (hn : kvs ≠ []) (ht : ∀ p ∈ kvs, Token p.1 ∧ Token p.2)
    (ho : kvs.Pairwise fun p q => lower p.1 ≠ lower q.1) : LegalElement ⟨w, kvs.map fun p => tokenPair p.1 p.2, []⟩ := by
  have hg : ∀ kvs : List (Str × Str), FwdElement.given ⟨w, kvs.map fun p => tokenPair p.1 p.2, []⟩ = kvs := by
    intro kvs
    induction kvs with
    | nil => rfl
    | cons p kvs ih =>
      show (p.1, p.2) :: FwdElement.given ⟨w, kvs.map fun p => tokenPair p.1 p.2, []⟩ = _
      rw [ih]
  refine ⟨hw, by simp [Ows], by simpa using hn, ?_, by rw [hg]; exact ho⟩
  intro p hp
  obtain ⟨q, hq, he⟩ := List.mem_map.mp hp
  cases he
  exact ⟨(ht q hq).1, .inl ⟨rfl, (ht q hq).2⟩⟩

/-- `for=a, For="b\\!";proto=c;host=d;`. -/
example : ∃ es f, chainText es = s!!"for=a, For=\"b\\!\";proto=c;host=d;" ∧ LegalChain es ∧ PlainChain es ∧ LowerNames es ∧ ChainMeans es f ∧
    f = ⟨none, [s!!"a", s!!"b!"], some s!!"d", some s!!"c"⟩ := by
  have tok : ∀ {t : Str}, (t ≠ [] ∧ ∀ c ∈ t, Mime.isToken c = true) → Token t := fun h => ⟨h.1, fun c hc => (Mime.isToken_iff c).mp (h.2 c hc)⟩
  have he : Escaped s!!"b\\!" s!!"b!" := .plain (by decide) (by decide) (.pair .nil)
  refine ⟨[⟨[], [tokenPair s!!"for" s!!"a"], []⟩,
    ⟨s!!" ", [some ⟨s!!"For", s!!"b!", s!!"\"b\\!\""⟩, tokenPair s!!"proto" s!!"c", tokenPair s!!"host" s!!"d", none], []⟩],
    _, by decide, ⟨by simp, ?_⟩, ?_, ?_, ⟨rfl, rfl, rfl, rfl⟩, rfl⟩
  · intro e he'
    simp only [List.mem_cons, List.not_mem_nil, or_false] at he'
    rcases he' with rfl | rfl
    · exact legal_tokens (kvs := [(s!!"for", s!!"a")]) (by simp [Ows]) (by simp)
        (by intro p hp; simp only [List.mem_singleton] at hp; subst hp; exact ⟨tok (by decide), tok (by decide)⟩) (by simp)
    · refine ⟨by simp [Ows], by simp [Ows], by simp, ?_, by decide⟩
      intro p hp
      simp only [tokenPair, List.mem_cons, Option.some.injEq, reduceCtorEq, List.not_mem_nil, or_false] at hp
      rcases hp with rfl | rfl | rfl
      · exact ⟨tok (by decide), .inr ⟨_, rfl, he, by unfold QuotedChar; decide⟩⟩
      · exact ⟨tok (by decide), .inl ⟨rfl, tok (by decide)⟩⟩
      · exact ⟨tok (by decide), .inl ⟨rfl, tok (by decide)⟩⟩
  · refine ⟨by simp, by simp, by simp [tokenPair], ?_, ?_⟩
    · intro e he' p hp
      simp only [List.mem_cons, List.not_mem_nil, or_false] at he'
      rcases he' with rfl | rfl
      · simp only [tokenPair, List.mem_singleton, Option.some.injEq] at hp
        subst hp
        rintro ⟨s, v, r, h, -⟩
        cases h
      · simp only [tokenPair, List.mem_cons, Option.some.injEq, reduceCtorEq, List.not_mem_nil, or_false] at hp
        rcases hp with rfl | rfl | rfl
        · have ha : isAscii s!!"\"b\\!\"" = true := by decide
          refine (Forwarded.paramText_iff (.inr ⟨_, rfl, he, by unfold QuotedChar; decide⟩) ha).mp (.inr ⟨s!!"b\\!", rfl, ?_⟩)
          exact .plain (.inr (.inr (.inr (by decide)))) (.pair (.inr (by decide)) .nil)
        · rintro ⟨s, v, r, h, -⟩; cases h
        · rintro ⟨s, v, r, h, -⟩; cases h
    · refine .cons_cons ⟨⟨_, rfl, ?_⟩, ⟨_, rfl, ?_⟩⟩ (.singleton _)
      · show lower _ = _; decide
      · show lower _ = _; decide
  · unfold LowerNames; decide


/-! ### what is refused or changed -/

/-- `k` being `by`, `host` or `proto` with a capital letter, the pair is passed over. -/
theorem C101_violated_case {a b k : Str} (ha : Token a) (hb : Token b) (hk : lower k ∈ [s!!"by", s!!"host", s!!"proto"]) (hc : lower k ≠ k) :
    ∃ es, chainText es = s!!"for=" ++ a ++ s!!";" ++ k ++ s!!"=" ++ b ∧ LegalChain es ∧ paramValues (lower k) es = [b] ∧
      Forwarded.parse (s!!"for=" ++ a ++ s!!";" ++ k ++ s!!"=" ++ b) = .ok ⟨none, [a], none, none⟩ := by
  have hkt : Token k := by
    have hlow : ∀ c ∈ lower k, Mime.isToken c = true := by
      simp only [List.mem_cons, List.not_mem_nil, or_false] at hk
      rcases hk with h | h | h <;> rw [h] <;> decide
    refine ⟨by rintro rfl; revert hk; decide, fun c hc => (Mime.isToken_iff c).mp ?_⟩
    rw [← Mime.isToken_lowerC]
    exact hlow _ (List.mem_map_of_mem hc)
  have hft : Token s!!"for" := Mime.token_of (by decide) (by decide)
  have hkf : lower k ≠ s!!"for" := by
    rintro h; rw [h] at hk; revert hk; decide
  have he : LegalElement ⟨[], [(s!!"for", a), (k, b)].map fun p => tokenPair p.1 p.2, []⟩ := by
    refine legal_tokens (by simp [Ows]) (by simp) ?_ ?_
    · intro p hp
      simp only [List.mem_cons, List.not_mem_nil, or_false] at hp
      rcases hp with rfl | rfl
      · exact ⟨hft, ha⟩
      · exact ⟨hkt, hb⟩
    · simp only [List.pairwise_cons, List.mem_singleton, forall_eq, List.not_mem_nil, false_imp_iff, implies_true, List.Pairwise.nil, and_true]
      exact fun h => hkf (h ▸ by decide)
  have ht : chainText [⟨[], [(s!!"for", a), (k, b)].map fun p => tokenPair p.1 p.2, []⟩] = s!!"for=" ++ a ++ s!!";" ++ k ++ s!!"=" ++ b := by
    simp [chainText, join, fwdPairsText, fwdPairText, tokenPair]
  refine ⟨_, ht, ⟨by simp, by simpa using he⟩, ?_, ?_⟩
  · have hfor : ¬ s!!"for" = lower k := fun h => hkf h.symm
    show (([(s!!"for", a), (k, b)] : List (Str × Str)).filter fun p => lower p.1 = lower k).map (·.2) = [b]
    rw [List.filter_cons_of_neg (by rw [decide_eq_true_eq]; exact hfor), List.filter_cons_of_pos (by simp)]
    rfl
  · rw [← ht, C101_reads_partial ⟨by simp, by simpa using he⟩]
    · refine ⟨⟨by simp, by simp, by simp [tokenPair], ?_, .singleton _⟩, ?_⟩
      · intro e he' p hp
        simp only [List.mem_singleton] at he'
        subst he'
        simp only [tokenPair, List.map_cons, List.map_nil, List.mem_cons, Option.some.injEq, List.not_mem_nil, or_false] at hp
        rintro ⟨s, v, r, h, -⟩
        rcases hp with rfl | rfl
        · exact Forwarded.not_token_quote _ ((show a = _ from h) ▸ ha)
        · exact Forwarded.not_token_quote _ ((show b = _ from h) ▸ hb)
      · have hkn : ∀ n ∈ [s!!"by", s!!"host", s!!"proto"], ¬ k = n := by
          rintro n hn rfl
          revert hc
          simp only [List.mem_cons, List.not_mem_nil, or_false] at hn
          rcases hn with rfl | rfl | rfl <;> decide
        have hv : ∀ n ∈ [s!!"by", s!!"host", s!!"proto"], valuesOf n [(s!!"for", a), (k, b)] = [] := by
          intro n hn
          rw [Forwarded.valuesOf_cons, Forwarded.valuesOf_cons, if_neg (hkn n hn), if_neg]
          · rfl
          · exact fun h => absurd hn (h ▸ (by decide : s!!"for" ∉ [s!!"by", s!!"host", s!!"proto"]))
        refine ⟨?_, hv _ (by simp), hv _ (by simp), hv _ (by simp)⟩
        show [a] = (([(s!!"for", a), (k, b)] : List (Str × Str)).filter fun p => lower p.1 = s!!"for").map (·.2)
        rw [List.filter_cons_of_pos (by rw [decide_eq_true_eq]; rfl), List.filter_cons_of_neg (by rw [decide_eq_true_eq]; exact hkf)]
        rfl
    · rw [ht, spec_ascii_iff]
      simp only [isAscii_append, Mime.token_ascii ha, Mime.token_ascii hb, Mime.token_ascii hkt]
      decide

example : lower s!!"Proto" ∈ [s!!"by", s!!"host", s!!"proto"] ∧ lower s!!"Proto" ≠ s!!"Proto" := by decide

/-- A value of the standard in which a comma is not between two `for` pairs is not read. -/
theorem C101_violated_meet {xs ys : List FwdElement} {e e' : FwdElement} (hl : LegalChain (xs ++ e :: e' :: ys))
    (ha : Ascii (chainText (xs ++ e :: e' :: ys))) (hm : ¬ ForMeets e e') (f : Forwarded) :
    Forwarded.parse (chainText (xs ++ e :: e' :: ys)) ≠ .ok f := by
  rw [Ne, C101_reads_partial hl ha]
  rintro ⟨hp, -⟩
  have key : ∀ xs : List FwdElement, (xs ++ e :: e' :: ys).IsChain ForMeets → ForMeets e e' := by
    intro xs
    induction xs with
    | nil => exact fun h => (List.isChain_cons_cons.mp h).1
    | cons x xs ih =>
      intro h
      refine ih ?_
      cases xs with
      | nil => exact (List.isChain_cons_cons.mp h).2
      | cons y xs => exact (List.isChain_cons_cons.mp h).2
  exact hm (key xs hp.meet)

/-- Two hops that both tell their protocol: `for=a;proto=b, for=c;proto=d`. -/
example (a b c d : Str) (ha : Token a) (hb : Token b) (hc : Token c) (hd : Token d) :
    LegalChain [⟨[], [(s!!"for", a), (s!!"proto", b)].map fun p => tokenPair p.1 p.2, []⟩,
      ⟨s!!" ", [(s!!"for", c), (s!!"proto", d)].map fun p => tokenPair p.1 p.2, []⟩] ∧
    ¬ ForMeets ⟨[], [(s!!"for", a), (s!!"proto", b)].map fun p => tokenPair p.1 p.2, []⟩
      ⟨s!!" ", [(s!!"for", c), (s!!"proto", d)].map fun p => tokenPair p.1 p.2, []⟩ := by
  have hft : Token s!!"for" := Mime.token_of (by decide) (by decide)
  have hpt : Token s!!"proto" := Mime.token_of (by decide) (by decide)
  have one : ∀ w x y, Ows w → Token x → Token y → LegalElement ⟨w, [(s!!"for", x), (s!!"proto", y)].map fun p => tokenPair p.1 p.2, []⟩ := by
    intro w x y hw hx hy
    refine legal_tokens hw (by simp) ?_ ?_
    · intro p hp
      simp only [List.mem_cons, List.not_mem_nil, or_false] at hp
      rcases hp with rfl | rfl
      · exact ⟨hft, hx⟩
      · exact ⟨hpt, hy⟩
    · simp only [List.pairwise_cons, List.mem_singleton, forall_eq, List.not_mem_nil, false_imp_iff, implies_true, List.Pairwise.nil, and_true]
      decide
  refine ⟨⟨by simp, ?_⟩, ?_⟩
  · intro e he
    simp only [List.mem_cons, List.not_mem_nil, or_false] at he
    rcases he with rfl | rfl
    · exact one _ _ _ (by simp [Ows]) ha hb
    · exact one _ _ _ (by simp [Ows]) hc hd
  · rintro ⟨⟨p, h1, h2⟩, -⟩
    cases h1
    have h3 : lower s!!"proto" = s!!"for" := h2
    revert h3
    decide

/-- A blank before a comma or at the end, a missing pair before a semicolon, and an unescaped exclamation mark in quotes
are legal but not read. -/
theorem C101_violated_forms {es : List FwdElement} (hl : LegalChain es) (ha : Ascii (chainText es))
    (h : ∃ e ∈ es, e.after ≠ [] ∨ none ∈ e.pairs.dropLast ∨ ∃ p, some p ∈ e.pairs ∧ BareBang p.raw) (f : Forwarded) :
    Forwarded.parse (chainText es) ≠ .ok f := by
  rw [Ne, C101_reads_partial hl ha]
  rintro ⟨hp, -⟩
  obtain ⟨e, he, h | h | ⟨p, h1, h2⟩⟩ := h
  · exact h (hp.after e he)
  · exact hp.given e he h
  · exact hp.raw e he p h1 h2

/-- `for=a , for=b`, `for=a;;by=b`, `for="!"`. -/
example : chainText [⟨[], [tokenPair s!!"for" s!!"a"], s!!" "⟩, ⟨s!!" ", [tokenPair s!!"for" s!!"b"], []⟩] = s!!"for=a , for=b" ∧
    none ∈ [tokenPair s!!"for" s!!"a", none, tokenPair s!!"by" s!!"b"].dropLast ∧ BareBang s!!"\"!\"" :=
  ⟨by decide, by simp [tokenPair], ⟨[], [], s!!"\"", rfl, .nil⟩⟩

/-- Of several field lines, which are one list by RFC 7230, only the first is read. -/
theorem C101_violated_lines (v6 : Str → Option Str) {h h' : Headers} {es : List FwdElement} {ts : List Str}
    (hg : h.get s!!"forwarded" = some (chainText es :: ts)) (hg' : h'.get s!!"forwarded" = some [chainText es]) :
    Forwarded.fromHeaders v6 h = Forwarded.fromHeaders v6 h' := by
  rw [forwarded_first v6 hg, forwarded_first v6 hg']

example : Headers.get [(s!!"forwarded", [s!!"for=a", s!!"for=b"])] s!!"forwarded" =
    some (chainText [⟨[], [tokenPair s!!"for" s!!"a"], []⟩] :: [s!!"for=b"]) := by decide

/-- An empty element at the end, which is to be passed over, makes reading panic. -/
theorem C101_violated_empty {a w : Str} (ha : Token a) (hw : Ows w) :
    (∃ es, LegalChain es ∧ chainText es = s!!"for=" ++ a ++ s!!"," ++ w ∧ paramValues s!!"for" es = [a]) ∧
    Forwarded.parse (s!!"for=" ++ a ++ s!!"," ++ w) = .panic := by
  have hft : Token s!!"for" := Mime.token_of (by decide) (by decide)
  constructor
  · refine ⟨[⟨[], [(s!!"for", a)].map fun p => tokenPair p.1 p.2, []⟩, ⟨w, [none], []⟩], ⟨by simp, ?_⟩, ?_, rfl⟩
    · intro e he
      simp only [List.mem_cons, List.not_mem_nil, or_false] at he
      rcases he with rfl | rfl
      · refine legal_tokens (by simp [Ows]) (by simp) ?_ (by simp)
        intro p hp
        simp only [List.mem_singleton] at hp
        subst hp
        exact ⟨hft, ha⟩
      · exact ⟨hw, by simp [Ows], by simp, by simp, by simp [FwdElement.given]⟩
    · simp [chainText, join, fwdPairsText, fwdPairText, tokenPair]
  · have hasc : Ascii (s!!"for=" ++ a ++ s!!"," ++ w) := by
      rw [spec_ascii_iff]
      have : isAscii w = true := by
        rw [isAscii_iff]
        intro c hc
        rcases (hw c hc : c = ' ' ∨ c = '\t') with rfl | rfl <;> decide
      simp only [isAscii_append, Mime.token_ascii ha, this]
      decide
    rw [(C49_reads_partial hasc).2.1]
    refine ⟨[(s!!"for", a)], ?_, ?_⟩
    · have := CutShort.here (k := s!!"for") (raw := a) (v := a) (w := w) (rest := []) (by decide) (.inl ⟨rfl, ha⟩) (ows_ws hw) (by decide) (by simp)
      simpa using this
    · intro k hk
      simp only [List.mem_cons, List.not_mem_nil, or_false] at hk
      rcases hk with rfl | rfl | rfl <;> simp [valuesOf]

example : Token s!!"192.0.2.43" ∧ Ows s!!" " := ⟨Mime.token_of (by decide) (by decide), by simp [Ows]⟩

end HT
