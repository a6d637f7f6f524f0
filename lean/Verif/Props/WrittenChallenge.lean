import Verif.Spec.WrittenChallenge
import Verif.Props.WrittenTimings
import Verif.Props.Fields

/-!
C113: what WWW-Authenticate writes is read by others as what was put in.
-/

namespace HT
open Spec

/-! ### parts stand alone -/

theorem spaces_ows (k : Nat) : Ows (List.replicate k ' ') := fun _ hc => .inl (List.eq_of_mem_replicate hc)

theorem space_ows (k : Nat) : Ows (' ' :: List.replicate k ' ') := spaces_ows (k + 1)

theorem eq_noTchar {a r : Str} (ha : Ows a) : NoTchar (a ++ '=' :: r) := ows_noTchar ha (cons_noTchar (by decide) _)

theorem paramPair_lead {t : Str} {p : Str × Str} (h : ParamPair t p) (r : Str) : NoLead (t ++ r) := by
  obtain ⟨n, a, b, raw, h1, -, -, -, -, rfl⟩ := h
  rw [List.append_assoc]
  exact noLead_of_token h1

theorem paramPair_bal {t : Str} {p : Str × Str} (h : ParamPair t p) : Bal t := by
  obtain ⟨n, a, b, raw, h1, h2, h3, h4, -, rfl⟩ := h
  exact bal_append (token_bal h1) (bal_append (ows_bal h2) (.plain (by decide) (by decide) (bal_append (ows_bal h3) (valueText_bal h4))))

theorem paramPair_last {t : Str} {p : Str × Str} (h : ParamPair t p) : t ≠ [] ∧ ∀ c, t.getLast? = some c → isWs c = false := by
  obtain ⟨n, a, b, raw, h1, h2, h3, h4, -, rfl⟩ := h
  obtain ⟨v1, -, v3⟩ := valueText_ends h4
  refine ⟨by simp, fun c hc => v3 c ?_⟩
  rw [show n ++ (a ++ '=' :: (b ++ raw)) = (n ++ (a ++ '=' :: b)) ++ raw by simp, List.getLast?_append_of_ne_nil _ v1] at hc
  exact hc

theorem paramPair_one {t t' r r' : Str} {p p' : Str × Str} (h : ParamPair t p) (h' : ParamPair t' p') (hr : NoTchar r) (hr' : NoTchar r')
    (he : t ++ r = t' ++ r') : p = p' ∧ r = r' := by
  obtain ⟨n, a, b, raw, h1, h2, h3, h4, h5, rfl⟩ := h
  obtain ⟨n', a', b', raw', h1', h2', h3', h4', h5', rfl⟩ := h'
  have he' : n ++ (a ++ '=' :: (b ++ (raw ++ r))) = n' ++ (a' ++ '=' :: (b' ++ (raw' ++ r'))) := by simpa using he
  obtain ⟨rfl, e⟩ := token_cut h1 h1' (eq_noTchar h2) (eq_noTchar h2') he'
  obtain ⟨rfl, f⟩ := cut_inj (c := '=') (ows_not_mem h2 (by decide) (by decide)) (ows_not_mem h2' (by decide) (by decide)) e
  obtain ⟨rfl, g⟩ := lead_inj h3 h3' (noLead_of_value h4) (noLead_of_value h4') f
  obtain ⟨rfl, e1, e2⟩ := value_cut h4 h4' hr hr' g
  exact ⟨Prod.ext (h5.trans h5'.symm) e1, e2⟩

theorem token68_char {r : Str} (h : Token68 r) : ∀ c ∈ r, c ≠ '"' ∧ c ≠ ',' ∧ isWs c = false ∧ c ≠ ' ' ∧ c ≠ '\t' := by
  obtain ⟨a, k, rfl, -, ha⟩ := h
  have hal : ∀ c : Char, c.isAlphanum = true → c ≠ '"' ∧ c ≠ ',' ∧ isWs c = false ∧ c ≠ ' ' ∧ c ≠ '\t' := by
    intro c hc
    have ht : TChar c := .inl hc
    refine ⟨?_, ?_, (tchar_not ht).1, ?_, ?_⟩ <;> rintro rfl <;> revert hc <;> decide
  have hs : ∀ c ∈ s!!"-._~+/", c ≠ '"' ∧ c ≠ ',' ∧ isWs c = false ∧ c ≠ ' ' ∧ c ≠ '\t' := by decide
  intro c hc
  rcases List.mem_append.mp hc with h | h
  · exact (ha c h).elim (hal c) (hs c)
  · rw [List.eq_of_mem_replicate h]
    decide

theorem token68_head {r : Str} (h : Token68 r) : r ≠ [] ∧ r.head? ≠ some '=' := by
  obtain ⟨a, k, rfl, h1, ha⟩ := h
  cases a with
  | nil => exact absurd rfl h1
  | cons c a =>
    refine ⟨by simp, fun h => ?_⟩
    cases h
    have := ha '=' List.mem_cons_self
    revert this
    decide

theorem token68_lead {r : Str} (h : Token68 r) (z : Str) : NoLead (r ++ z) := by
  intro c hc
  cases r with
  | nil => exact absurd rfl (token68_head h).1
  | cons x r =>
    cases hc
    exact (token68_char h c List.mem_cons_self).2.2.2

/-- A `token68` is not a parameter. -/
theorem token68_pair {r : Str} {p : Str × Str} (h : Token68 r) (h' : ParamPair r p) : False := by
  obtain ⟨n, a, b, raw, h1, h2, h3, h4, -, rfl⟩ := h'
  have hc := token68_char h
  obtain ⟨x, k, e, -, hx⟩ := h
  have hq : '"' ∉ raw := fun hm => (hc '"' (by simp [hm])).1 rfl
  rcases h4 with ⟨hv, ht⟩ | ⟨_, rfl, -, -⟩
  · rw [← hv] at ht
    have hne : '=' ∉ raw := Mime.token_not_mem ht (by decide)
    cases k with
    | zero =>
      rw [List.replicate_zero, List.append_nil] at e
      have := hx '=' (by rw [← e]; simp)
      revert this
      decide
    | succ k =>
      have hl := congrArg List.getLast? e
      rw [show n ++ (a ++ '=' :: (b ++ raw)) = (n ++ (a ++ '=' :: b)) ++ raw by simp, List.getLast?_append_of_ne_nil _ ht.1,
        List.replicate_succ', ← List.append_assoc, List.getLast?_concat] at hl
      exact hne (List.mem_of_mem_getLast? hl)
  · exact hq List.mem_cons_self

theorem afterScheme_one {s s' r r' A A' : Str} (h : AfterScheme A s r) (h' : AfterScheme A' s' r') {z z' : Str} (hr : NoLead (r ++ z))
    (hr' : NoLead (r' ++ z')) (he : A ++ z = A' ++ z') : s = s' ∧ r ++ z = r' ++ z' := by
  obtain ⟨n, k, h1, rfl, rfl⟩ := h
  obtain ⟨n', k', h1', rfl, rfl⟩ := h'
  have he' : n ++ ((' ' :: List.replicate k ' ') ++ (r ++ z)) = n' ++ ((' ' :: List.replicate k' ' ') ++ (r' ++ z')) := by simpa using he
  obtain ⟨rfl, e⟩ := token_cut h1 h1' (cons_noTchar (by decide) _) (cons_noTchar (by decide) _) he'
  exact ⟨rfl, (lead_inj (space_ows k) (space_ows k') hr hr' e).2⟩

/-- A parameter is not a scheme with something after it. -/
theorem afterScheme_pair {t s r : Str} {p : Str × Str} (h : AfterScheme t s r) (hr : NoLead r) (hc : r.head? ≠ some '=') : ¬ ParamPair t p := by
  rintro ⟨n', a, b, raw, h1', h2, -, -, -, e⟩
  obtain ⟨n, k, h1, -, rfl⟩ := h
  obtain ⟨-, e⟩ := token_cut h1 h1' (cons_noTchar (by decide) _) (eq_noTchar h2) e
  have := (lead_inj (x' := '=' :: (b ++ raw)) (space_ows k) h2 hr (fun c hc => by cases hc; decide) e).2
  rw [this] at hc
  exact hc rfl

theorem paramPair_head {t : Str} {p : Str × Str} (h : ParamPair t p) : NoLead t ∧ t.head? ≠ some '=' := by
  have h1 := paramPair_lead h []
  rw [List.append_nil] at h1
  refine ⟨h1, fun hc => ?_⟩
  obtain ⟨n, a, b, raw, hn, -, -, -, -, rfl⟩ := h
  cases n with
  | nil => exact hn.1 rfl
  | cons c n =>
    cases hc
    exact (tchar_not (hn.2 '=' List.mem_cons_self)).2.2.2 rfl

theorem token_space {t : Str} (h : Token t) : ' ' ∉ t := Mime.token_not_mem h (by decide)

theorem alone_part : Alone PartText := by
  have after_space : ∀ {t s r}, AfterScheme t s r → ' ' ∈ t := by
    rintro t s r ⟨n, k, -, -, rfl⟩
    simp
  have pair_eq : ∀ {t p}, ParamPair t p → '=' ∈ t := by
    rintro t p ⟨n, a, b, raw, -, -, -, -, -, rfl⟩
    simp
  have after_bal : ∀ {t s r}, AfterScheme t s r → Bal r → Bal t := by
    rintro t s r ⟨n, k, h1, -, rfl⟩ hr
    exact bal_append (token_bal h1) (.plain (by decide) (by decide) (bal_append (ows_bal (spaces_ows k)) hr))
  have after_trim : ∀ {t s r}, AfterScheme t s r → r ≠ [] → (∀ c, r.getLast? = some c → isWs c = false) → t ≠ [] ∧ Trimmed t := by
    rintro t s r ⟨n, k, h1, -, rfl⟩ hr hl
    refine ⟨by simp, fun c hc => ?_, fun c hc => hl c ?_⟩
    · refine ((token_ends h1).1 c ?_).1
      cases n with
      | nil => exact absurd rfl h1.1
      | cons y n => exact hc
    · rw [show n ++ ' ' :: (List.replicate k ' ' ++ r) = (n ++ ' ' :: List.replicate k ' ') ++ r by simp,
        List.getLast?_append_of_ne_nil _ hr] at hc
      exact hc
  have nt : NoTchar ([] : Str) := fun c hc => by cases hc
  refine ⟨?_, ?_, ?_⟩
  · intro t x h
    cases x with
    | scheme s => exact token_bal h.1
    | encoded s r => exact after_bal h.2 (bal_plain fun c hc => ⟨(token68_char h.1 c hc).1, (token68_char h.1 c hc).2.1⟩)
    | first s p =>
      obtain ⟨r, h1, h2⟩ := h
      exact after_bal h2 (paramPair_bal h1)
    | param p => exact paramPair_bal h
  · intro t x h
    cases x with
    | scheme s => exact ⟨h.1.1, fun c hc => ((token_ends h.1).1 c hc).1, fun c hc => ((token_ends h.1).2 c hc).1⟩
    | encoded s r =>
      exact after_trim h.2 (token68_head h.1).1 fun c hc => (token68_char h.1 c (List.mem_of_mem_getLast? hc)).2.2.1
    | first s p =>
      obtain ⟨r, h1, h2⟩ := h
      exact after_trim h2 (paramPair_last h1).1 (paramPair_last h1).2
    | param p =>
      refine ⟨(paramPair_last h).1, fun c hc => ?_, (paramPair_last h).2⟩
      obtain ⟨n, a, b, raw, h1, -, -, -, -, rfl⟩ := h
      refine ((token_ends h1).1 c ?_).1
      cases n with
      | nil => exact absurd rfl h1.1
      | cons y n => exact hc
  · have lead : ∀ {r : Str}, Token68 r → NoLead r := fun h => by have := token68_lead h []; rwa [List.append_nil] at this
    intro t x x' h h'
    cases x with
    | scheme s =>
      cases x' with
      | scheme s' => rw [h.2, h'.2]
      | encoded s' r => exact absurd (after_space h'.2) (token_space h.1)
      | first s' p =>
        obtain ⟨r, -, h2⟩ := h'
        exact absurd (after_space h2) (token_space h.1)
      | param p => exact absurd (pair_eq h') (Mime.token_not_mem h.1 (by decide))
    | encoded s r =>
      cases x' with
      | scheme s' => exact absurd (after_space h.2) (token_space h'.1)
      | encoded s' r' =>
        obtain ⟨rfl, e⟩ := afterScheme_one (z := []) (z' := []) h.2 h'.2 (token68_lead h.1 _) (token68_lead h'.1 _) rfl
        simp at e
        rw [e]
      | first s' p =>
        obtain ⟨r', h1, h2⟩ := h'
        obtain ⟨rfl, e⟩ := afterScheme_one (z := []) (z' := []) h.2 h2 (token68_lead h.1 _) (paramPair_lead h1 _) rfl
        simp at e
        subst e
        exact (token68_pair h.1 h1).elim
      | param p => exact absurd h' (afterScheme_pair h.2 (lead h.1) (token68_head h.1).2)
    | first s p =>
      obtain ⟨r, h1, h2⟩ := h
      cases x' with
      | scheme s' => exact absurd (after_space h2) (token_space h'.1)
      | encoded s' r' =>
        obtain ⟨rfl, e⟩ := afterScheme_one (z := []) (z' := []) h2 h'.2 (paramPair_lead h1 _) (token68_lead h'.1 _) rfl
        simp at e
        subst e
        exact (token68_pair h'.1 h1).elim
      | first s' p' =>
        obtain ⟨r', h1', h2'⟩ := h'
        obtain ⟨rfl, e⟩ := afterScheme_one (z := []) (z' := []) h2 h2' (paramPair_lead h1 _) (paramPair_lead h1' _) rfl
        rw [(paramPair_one h1 h1' nt nt e).1]
      | param p' => exact absurd h' (afterScheme_pair h2 (paramPair_head h1).1 (paramPair_head h1).2)
    | param p =>
      cases x' with
      | scheme s' => exact absurd (pair_eq h) (Mime.token_not_mem h'.1 (by decide))
      | encoded s' r => exact absurd h (afterScheme_pair h'.2 (lead h'.1) (token68_head h'.1).2)
      | first s' p' =>
        obtain ⟨r', h1', h2'⟩ := h'
        exact absurd h (afterScheme_pair h2' (paramPair_head h1').1 (paramPair_head h1').2)
      | param p' => rw [(paramPair_one (r := []) (r' := []) h h' nt nt rfl).1]

/-! ### challenges from parts -/

/-- Does not start with a parameter. -/
def NewScheme (ps : List ChallengePart) : Prop := ∀ p, ps.head? ≠ some (.param p)

theorem challenges_new {ps : List ChallengePart} {cs : List (Str × ChallengeData)} (h : Challenges ps cs) : NewScheme ps := by
  intro p hp
  cases h <;> cases hp

theorem params_inj {qs qs' : List (Str × Str)} {ps ps' : List ChallengePart} (h : NewScheme ps) (h' : NewScheme ps')
    (he : qs.map ChallengePart.param ++ ps = qs'.map ChallengePart.param ++ ps') : qs = qs' ∧ ps = ps' := by
  induction qs generalizing qs' with
  | nil =>
    cases qs' with
    | nil => exact ⟨rfl, he⟩
    | cons q qs' => exact absurd (by rw [show ps = _ from he]; rfl) (h q)
  | cons q qs ih =>
    cases qs' with
    | nil => exact absurd (by rw [← show _ = ps' from he]; rfl) (h' q)
    | cons q' qs' =>
      obtain ⟨e1, e2⟩ := List.cons.inj he
      cases e1
      obtain ⟨rfl, rfl⟩ := ih e2
      exact ⟨rfl, rfl⟩

theorem challenges_one {ps : List ChallengePart} {cs cs' : List (Str × ChallengeData)} (h : Challenges ps cs) (h' : Challenges ps cs') :
    cs = cs' := by
  induction h generalizing cs' with
  | nil => cases h'; rfl
  | encoded _ ih =>
    cases h' with
    | encoded h' => rw [ih h']
  | @scheme s qs ps cs h ih =>
    generalize hr : ChallengePart.scheme s :: (qs.map .param ++ ps) = r at h'
    cases h' with
    | nil => cases hr
    | encoded => cases hr
    | @scheme s' qs' ps' cs' h' =>
      obtain ⟨e1, e2⟩ := List.cons.inj hr
      cases e1
      obtain ⟨rfl, rfl⟩ := params_inj (challenges_new h) (challenges_new h') e2
      rw [ih h']
    | first => cases hr
  | @first s q qs ps cs h ih =>
    generalize hr : ChallengePart.first s q :: (qs.map .param ++ ps) = r at h'
    cases h' with
    | nil => cases hr
    | encoded => cases hr
    | scheme => cases hr
    | @first s' q' qs' ps' cs' h' =>
      obtain ⟨e1, e2⟩ := List.cons.inj hr
      cases e1
      obtain ⟨rfl, rfl⟩ := params_inj (challenges_new h) (challenges_new h') e2
      rw [ih h']

/-- C113. A value has at most one reading. -/
theorem C113_one {v : Str} {cs cs' : List (Str × ChallengeData)} (h : ChallengesRead v cs) (h' : ChallengesRead v cs') : cs = cs' := by
  obtain ⟨ps, ⟨ms, h1, rfl⟩, h2, -⟩ := h
  obtain ⟨ps', ⟨ms', h1', rfl⟩, h2', -⟩ := h'
  cases listed_alone alone_part h1 h1'
  exact challenges_one h2 h2'

example : ChallengesRead s!!"Negotiate, Custom" [(s!!"negotiate", .params []), (s!!"custom", .params [])] :=
  ⟨[.scheme s!!"negotiate", .scheme s!!"custom"],
    ((anyListed_only alone_part (ts := [s!!"Negotiate", s!!"Custom"])
      (xs := [.scheme s!!"negotiate", .scheme s!!"custom"]) (.cons ⟨Mime.token_of (by decide) (by decide), by decide⟩
      (.cons ⟨Mime.token_of (by decide) (by decide), by decide⟩ .nil))) _).mpr rfl,
    .scheme (qs := []) (.scheme (qs := []) .nil), by simp⟩

theorem challenges_only {ts : List Str} {ps : List ChallengePart} {cs : List (Str × ChallengeData)} (h : List.Forall₂ PartText ts ps)
    (hc : Challenges ps cs) (hn : cs ≠ []) : OnlyAs (ChallengesRead (join s!!", " ts)) cs := by
  have : ChallengesRead (join s!!", " ts) cs := ⟨ps, ((anyListed_only alone_part h) ps).mpr rfl, hc, hn⟩
  exact fun y => ⟨fun hy => C113_one hy this, fun e => e ▸ this⟩

/-! ### the claims -/

theorem scheme_token (s : Scheme) : Token s.toStr ∧ (realmOf s []).1 = lower s.toStr := by
  cases s <;> exact ⟨Mime.token_of (by decide) (by decide), by decide⟩

/-- A written parameter. -/
theorem quoted_pair {n n' e v : Str} (hn : Token n) (hl : lower n = n') (he : Escaped e v) (hq : ∀ c ∈ v, QuotedChar c) :
    ParamPair (n ++ s!!"=\"" ++ e ++ s!!"\"") (n', v) :=
  ⟨n, [], [], '"' :: (e ++ ['"']), hn, by simp [Ows], by simp [Ows], .inr ⟨e, rfl, he, hq⟩, hl.symm, by simp⟩

theorem charset_pair : ParamPair s!!"charset=\"UTF-8\"" (s!!"charset", s!!"UTF-8") :=
  quoted_pair (n := s!!"charset") (e := s!!"UTF-8") (Mime.token_of (by decide) (by decide)) (by decide) (escaped_clean (by decide))
    (fun c hc => (Mime.isQuotable_iff c).mp (by revert c; decide))

theorem realm_token : Token s!!"realm" := Mime.token_of (by decide) (by decide)

/-- C113. What is written is read with escapes taken away. -/
theorem C113_read (s : Scheme) {r v : Str} (he : Escaped r v) (hq : ∀ c ∈ v, QuotedChar c) :
    OnlyAs (ChallengesRead (WwwAuthenticate.headerValue ⟨s, r⟩)) [realmOf s v] := by
  have h := challenges_only (ts := [s.toStr ++ ' ' :: (List.replicate 0 ' ' ++ (s!!"realm" ++ s!!"=\"" ++ r ++ s!!"\"")), s!!"charset=\"UTF-8\""])
    (ps := [.first (lower s.toStr) (s!!"realm", v), .param (s!!"charset", s!!"UTF-8")])
    (.cons ⟨_, quoted_pair realm_token (by decide) he hq, s.toStr, 0, (scheme_token s).1, rfl, rfl⟩ (.cons charset_pair .nil))
    (.first (qs := [(s!!"charset", s!!"UTF-8")]) .nil) (by simp)
  rw [show realmOf s v = (lower s.toStr, .params [(s!!"realm", v), (s!!"charset", s!!"UTF-8")]) by
    rw [← (scheme_token s).2]; rfl]
  have e : WwwAuthenticate.headerValue ⟨s, r⟩ =
      join s!!", " [s.toStr ++ ' ' :: (List.replicate 0 ' ' ++ (s!!"realm" ++ s!!"=\"" ++ r ++ s!!"\"")), s!!"charset=\"UTF-8\""] := by
    simp [WwwAuthenticate.headerValue, join]
  rw [e]
  exact h

example : OnlyAs (ChallengesRead s!!"Basic realm=\"ab\", charset=\"UTF-8\"") [realmOf .basic s!!"ab"] :=
  C113_read .basic (r := s!!"ab") (.plain (by decide) (by decide) (.plain (by decide) (by decide) .nil))
    (fun c hc => (Mime.isQuotable_iff c).mp (by revert c; decide))

/-- The first part of a written value. -/
theorem first_part {n t : Str} {parts : List ChallengePart} (hn : Token n) (h : AnyListed PartText (n ++ ' ' :: t) parts) :
    ∃ x xs t0 b z, parts = x :: xs ∧ PartText t0 x ∧ Ows b ∧ EndsAt z ∧ n ++ ' ' :: t = t0 ++ (b ++ z) := by
  obtain ⟨ms, h1, rfl⟩ := h
  obtain ⟨ps, h2, h3, h4⟩ := listed_value h1
  cases h4 with
  | nil => exact absurd rfl h2
  | @cons p m ps ms hm _ =>
    have hz : ∃ z, EndsAt z ∧ join [','] (p :: ps) = p ++ z := by
      cases ps with
      | nil => exact ⟨[], (by intro c hc; cases hc), by simp [join]⟩
      | cons q ps => exact ⟨',' :: join [','] (q :: ps), (by intro c hc; cases hc; rfl), by simp [join]⟩
    obtain ⟨z, z1, z2⟩ := hz
    obtain ⟨a, t0, b, ha, hb, rfl, ht⟩ := hm
    rw [z2] at h3
    have h5 : [] ++ (n ++ ' ' :: t) = a ++ (t0 ++ (b ++ z)) := by simpa using h3
    cases m with
    | none =>
      exfalso
      subst ht
      have h6 : [] ++ (n ++ ' ' :: t) = (a ++ b) ++ z := by simpa using h5
      have hab : Ows (a ++ b) := fun c hc => (List.mem_append.mp hc).elim (ha c) (hb c)
      obtain ⟨-, e⟩ := lead_inj (by simp [Ows]) hab (noLead_of_token hn) (ends_noLead z1) h6
      cases n with
      | nil => exact hn.1 rfl
      | cons c n =>
        have := z1 c (by rw [← e]; rfl)
        exact (tchar_not (hn.2 c List.mem_cons_self)).2.2.1 this
    | some x =>
      have hl : NoLead (t0 ++ (b ++ z)) := by
        intro c hc
        obtain ⟨g1, g2, -⟩ := alone_part.trimmed t0 x ht
        cases t0 with
        | nil => exact absurd rfl g1
        | cons y t0 =>
          have := g2 c hc
          constructor <;> rintro rfl <;> revert this <;> decide
      obtain ⟨-, e⟩ := lead_inj (by simp [Ows]) ha (noLead_of_token hn) hl h5
      exact ⟨x, ms.filterMap id, t0, b, z, rfl, ht, hb, z1, e⟩

/-- The first part has the realm in it. -/
theorem realm_part {n r : Str} {parts : List ChallengePart} (hn : Token n)
    (h : AnyListed PartText (n ++ ' ' :: (s!!"realm=\"" ++ r)) parts) :
    ∃ e v xs z, parts = .first (lower n) (s!!"realm", v) :: xs ∧ Escaped e v ∧ (∀ c ∈ v, QuotedChar c) ∧ Stops z ∧ r = e ++ '"' :: z := by
  obtain ⟨x, xs, t0, b, z, rfl, hx, hb, hz, he⟩ := first_part hn h
  have hbz : NoTchar (b ++ z) := ows_noTchar hb (noTchar_of fun c hc => by rw [hz c hc]; decide)
  have hrl : NoLead (s!!"realm=\"" ++ r) := fun c hc => by cases hc; decide
  have after : ∀ {s q}, AfterScheme t0 s q → (∀ y, NoLead (q ++ y)) → s = lower n ∧ s!!"realm=\"" ++ r = q ++ (b ++ z) := by
    intro s q ha hq
    have := afterScheme_one (A := n ++ ' ' :: (List.replicate 0 ' ' ++ [])) (r := []) (z := s!!"realm=\"" ++ r) ⟨n, 0, hn, rfl, rfl⟩ ha
      hrl (hq _) (by simpa using he)
    exact ⟨this.1.symm, this.2⟩
  cases x with
  | scheme s =>
    exfalso
    obtain ⟨-, e⟩ := token_cut hn hx.1 (cons_noTchar (by decide) _) hbz he
    obtain ⟨-, e⟩ := lead_inj (a := [' ']) (x := s!!"realm=\"" ++ r) (by simp [Ows]) hb hrl (ends_noLead hz) e
    exact absurd (hz 'r' (by rw [← e]; rfl)) (by decide)
  | encoded s q =>
    exfalso
    obtain ⟨-, e⟩ := after hx.2 (fun y => token68_lead hx.1 y)
    have hc := token68_char hx.1
    obtain ⟨a, k, rfl, h1, h2⟩ := hx.1
    have key : s!!"realm=" ++ '"' :: r = (a ++ List.replicate k '=') ++ (b ++ z) := by simpa using e
    rcases List.append_eq_append_iff.mp key with ⟨u, e1, e2⟩ | ⟨u, e1, e2⟩
    · cases u with
      | nil =>
        have : '"' = ' ' ∨ '"' = '\t' ∨ '"' = ',' := ows_stops hb hz '"' (by rw [← show _ = b ++ z from e2]; rfl)
        revert this
        decide
      | cons c u =>
        cases (List.cons.inj e2).1
        exact (hc '"' (by rw [e1]; simp)).1 rfl
    · cases u with
      | nil =>
        have : '"' = ' ' ∨ '"' = '\t' ∨ '"' = ',' := ows_stops hb hz '"' (by rw [show b ++ z = _ from e2]; rfl)
        revert this
        decide
      | cons c u =>
        have g1 : c = ' ' ∨ c = '\t' ∨ c = ',' := ows_stops hb hz c (by rw [e2]; rfl)
        have g2 : c ∈ s!!"realm=" := by rw [e1]; simp
        exact (show ∀ c ∈ s!!"realm=", ¬ (c = ' ' ∨ c = '\t' ∨ c = ',') by decide) c g2 g1
  | param p =>
    exfalso
    obtain ⟨n', a, b', raw, h1, h2, -, -, -, rfl⟩ := hx
    have he' : n ++ ' ' :: (s!!"realm=\"" ++ r) = n' ++ (a ++ '=' :: (b' ++ (raw ++ (b ++ z)))) := by simpa using he
    obtain ⟨-, e⟩ := token_cut hn h1 (cons_noTchar (by decide) _) (eq_noTchar h2) he'
    obtain ⟨-, e⟩ := lead_inj (a := [' ']) (x := s!!"realm=\"" ++ r) (x' := '=' :: (b' ++ (raw ++ (b ++ z)))) (by simp [Ows]) h2 hrl
      (fun c hc => by cases hc; decide) e
    cases e
  | first s p =>
    obtain ⟨q, hq, ha⟩ := hx
    obtain ⟨rfl, e⟩ := after ha (fun y => paramPair_lead hq y)
    obtain ⟨n', a, b', raw, h1, h2, h3, h4, h5, rfl⟩ := hq
    have e' : s!!"realm" ++ ([] ++ '=' :: ([] ++ ('"' :: r))) = n' ++ (a ++ '=' :: (b' ++ (raw ++ (b ++ z)))) := by simpa using e
    obtain ⟨rfl, f⟩ := token_cut realm_token h1 (eq_noTchar (by simp [Ows])) (eq_noTchar h2) e'
    obtain ⟨rfl, g⟩ := cut_inj (c := '=') (by simp) (ows_not_mem h2 (by decide) (by decide)) f
    obtain ⟨rfl, i⟩ := lead_inj (by simp [Ows]) h3 (fun c hc => by cases hc; decide) (noLead_of_value h4) g
    obtain ⟨p1, p2⟩ := p
    simp only at h4 h5
    subst h5
    rcases h4 with ⟨rfl, ht⟩ | ⟨w, rfl, k1, k2⟩
    · exfalso
      cases raw with
      | nil => exact ht.1 rfl
      | cons c raw =>
        cases (List.cons.inj i).1
        exact Mime.token_not_mem ht (c := '"') (by decide) List.mem_cons_self
    · exact ⟨w, p2, xs, b ++ z, rfl, k1, k2, ows_stops hb hz, by simpa using i⟩

/-- C113. A written challenge is read by others as the scheme and the realm that were put in exactly if the realm is text
without quotes, backslashes and control characters. -/
theorem C113_challenge_iff_partial (a : WwwAuthenticate) :
    OnlyAs (ChallengesRead a.headerValue) [realmOf a.scheme a.realm] ↔ ∀ c ∈ a.realm, QuotedChar c ∧ c ≠ '"' ∧ c ≠ '\\' := by
  constructor
  · intro h
    obtain ⟨parts, h1, h2, -⟩ := (h _).mpr rfl
    have e : a.headerValue = a.scheme.toStr ++ ' ' :: (s!!"realm=\"" ++ (a.realm ++ s!!"\", charset=\"UTF-8\"")) := by
      simp [WwwAuthenticate.headerValue]
    rw [e] at h1
    obtain ⟨e, v, xs, z, rfl, h3, h4, -, h5⟩ := realm_part (scheme_token a.scheme).1 h1
    have hv : v = a.realm := by
      generalize hr : [realmOf a.scheme a.realm] = r at h2
      cases h2 with
      | first h => exact (Prod.mk.inj (List.cons.inj (ChallengeData.params.inj (Prod.mk.inj (List.cons.inj hr).1).2)).1).2.symm
    subst hv
    have := (escaped_close h3 (A := z) (B := s!!", charset=\"UTF-8\"") (by rw [← h5])).1
    exact fun c hc => ⟨h4 c hc, this c hc⟩
  · intro h
    exact C113_read a.scheme (escaped_clean fun c hc => (h c hc).2) fun c hc => (h c hc).1

example : OnlyAs (ChallengesRead s!!"Basic realm=\"a, b\", charset=\"UTF-8\"")
    [(s!!"basic", .params [(s!!"realm", s!!"a, b"), (s!!"charset", s!!"UTF-8")])] :=
  (C113_challenge_iff_partial ⟨.basic, s!!"a, b"⟩).mpr
    (fun c hc => ⟨(Mime.isQuotable_iff c).mp (by revert c; decide), by revert c; decide, by revert c; decide⟩)

example : OnlyAs (ChallengesRead s!!"Digest realm=\"a\\b\", charset=\"UTF-8\"") [realmOf .digest s!!"ab"] :=
  C113_read .digest (r := s!!"a\\b") (.plain (by decide) (by decide) (.pair .nil))
    (fun c hc => (Mime.isQuotable_iff c).mp (by revert c; decide))

/-- Text that needs no escapes in a quoted string. -/
def CleanText (r : Str) : Prop := ∀ c ∈ r, QuotedChar c ∧ c ≠ '"' ∧ c ≠ '\\'

/-- C113 is violated: a realm can bring along a challenge of its own. -/
theorem C113_violated_inject (s s' : Scheme) {r r' : Str} (h : CleanText r) (h' : CleanText r') :
    OnlyAs (ChallengesRead (WwwAuthenticate.headerValue ⟨s, r ++ s!!"\", " ++ s'.toStr ++ s!!" realm=\"" ++ r'⟩))
      [((realmOf s r).1, .params [(s!!"realm", r)]), realmOf s' r'] := by
  have one : ∀ (s : Scheme) {r : Str}, CleanText r →
      PartText (s.toStr ++ ' ' :: (List.replicate 0 ' ' ++ (s!!"realm" ++ s!!"=\"" ++ r ++ s!!"\""))) (.first (lower s.toStr) (s!!"realm", r)) :=
    fun s r h => ⟨_, quoted_pair realm_token (by decide) (escaped_clean fun c hc => (h c hc).2) fun c hc => (h c hc).1, s.toStr, 0,
      (scheme_token s).1, rfl, rfl⟩
  have hc := challenges_only (.cons (one s h) (.cons (one s' h') (.cons
      (show PartText s!!"charset=\"UTF-8\"" (.param (s!!"charset", s!!"UTF-8")) from charset_pair) .nil)))
    (.first (qs := []) (.first (qs := [(s!!"charset", s!!"UTF-8")]) .nil)) (by simp)
  rw [show (realmOf s r).1 = lower s.toStr from (scheme_token s).2,
    show realmOf s' r' = (lower s'.toStr, .params [(s!!"realm", r'), (s!!"charset", s!!"UTF-8")]) by rw [← (scheme_token s').2]; rfl]
  have e : WwwAuthenticate.headerValue ⟨s, r ++ s!!"\", " ++ s'.toStr ++ s!!" realm=\"" ++ r'⟩ =
      join s!!", " [s.toStr ++ ' ' :: (List.replicate 0 ' ' ++ (s!!"realm" ++ s!!"=\"" ++ r ++ s!!"\"")),
        s'.toStr ++ ' ' :: (List.replicate 0 ' ' ++ (s!!"realm" ++ s!!"=\"" ++ r' ++ s!!"\"")), s!!"charset=\"UTF-8\""] := by
    simp [WwwAuthenticate.headerValue, join]
  rw [e]
  exact hc

example : OnlyAs (ChallengesRead s!!"Digest realm=\"a\", Basic realm=\"b\", charset=\"UTF-8\"")
    [(s!!"digest", .params [(s!!"realm", s!!"a")]), realmOf .basic s!!"b"] :=
  C113_violated_inject .digest .basic (r := s!!"a") (r' := s!!"b")
    (fun c hc => ⟨(Mime.isQuotable_iff c).mp (by revert c; decide), by revert c; decide, by revert c; decide⟩)
    (fun c hc => ⟨(Mime.isQuotable_iff c).mp (by revert c; decide), by revert c; decide, by revert c; decide⟩)

/-- C113 is violated: with a backslash at the end of the realm nobody can read the value. -/
theorem C113_violated_backslash (s : Scheme) {r : Str} (h : CleanText r) (cs : List (Str × ChallengeData)) :
    ¬ ChallengesRead (WwwAuthenticate.headerValue ⟨s, r ++ s!!"\\"⟩) cs := by
  rintro ⟨parts, h1, -, -⟩
  have e : WwwAuthenticate.headerValue ⟨s, r ++ s!!"\\"⟩ =
      s.toStr ++ ' ' :: (s!!"realm=\"" ++ ((r ++ s!!"\\\", charset=") ++ '"' :: s!!"UTF-8\"")) := by
    simp [WwwAuthenticate.headerValue]
  rw [e] at h1
  obtain ⟨w, v, xs, z, -, h3, -, h4, h5⟩ := realm_part (scheme_token s).1 h1
  have h6 : ∀ {r : Str}, CleanText r → Escaped (r ++ s!!"\\\", charset=") (r ++ s!!"\", charset=") := by
    intro r h
    induction r with
    | nil => exact .pair (escaped_clean (t := s!!", charset=") (by decide))
    | cons c r ih =>
      have := (h c List.mem_cons_self).2
      exact .plain this.1 this.2 (ih fun d hd => h d (List.mem_cons_of_mem _ hd))
  obtain ⟨-, -, rfl⟩ := Forwarded.escaped_unique (h6 h) h3 h5
  have := h4 'U' rfl
  revert this
  decide

example (cs : List (Str × ChallengeData)) : ¬ ChallengesRead s!!"Basic realm=\"a\\\", charset=\"UTF-8\"" cs :=
  C113_violated_backslash .basic (r := s!!"a")
    (fun c hc => ⟨(Mime.isQuotable_iff c).mp (by revert c; decide), by revert c; decide, by revert c; decide⟩) cs

end HT
