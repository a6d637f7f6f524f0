import Verif.Spec.Fields
import Verif.Props.Simple
import Verif.Props.Auth
import Verif.Props.Directives

/-! Headers with one value by the standards: C98. -/

namespace HT
open Spec

/-! ### Numbers -/

theorem digitText_numeral {v : Str} {n : Nat} (h : DigitText v n) : Numeral v n := ⟨v, h.1, .inl rfl, h.2.1, h.2.2⟩

/-- `1*DIGIT` is read with its value. Missing: numbers of 2^64 and more, and ages that are not doubles; see below. -/
theorem C98_numbers_partial {v : Str} {n : Nat} (hd : DigitText v n) (hn : n < 2 ^ 64) (h : Headers) (vs : List Str) :
    (∀ a b : Str, (∀ c ∈ a, c = ' ' ∨ c = '\t') → (∀ c ∈ b, c = ' ' ∨ c = '\t') →
      h.get s!!"content-length" = some (vs ++ [a ++ v ++ b]) → ContentLength.fromHeaders h = .ok (some n)) ∧
    (h.get s!!"retry-after" = some (vs ++ [v]) → RetryAfter.fromHeaders h = .ok (some (.dur ⟨n, 0⟩))) ∧
    (n ≤ 2 ^ 53 → h.get s!!"age" = some (vs ++ [v]) → Age.fromHeaders h = .ok (some ⟨n, 0⟩)) := by
  have hnum := digitText_numeral hd
  refine ⟨fun a b ha hb hg => ?_, fun hg => ?_, fun hs hg => ?_⟩
  · have ws : ∀ w : Str, (∀ c ∈ w, c = ' ' ∨ c = '\t') → ∀ c ∈ w, isWs c = true := by
      intro w hw c hc
      rcases hw c hc with rfl | rfl <;> decide
    exact (((C42_reads h).2 vs _ hg).1 n).mpr ⟨hn, a, v, b, rfl, ws a ha, ws b hb, hnum⟩
  · exact (((C58_reads h).2 vs v hg).1 ⟨n, 0⟩).mpr ⟨rfl, hn, hnum⟩
  · have hr : Age.fromHeaders h = _ := readLast_snoc hg
    rw [hr, parseUInt_iff.mpr ⟨hnum, show n < u64Max1 from hn⟩]
    have he : natToF64 n = n := (roundTo_eq_self_iff (by decide)).mpr (representable_of_lt hs (by decide))
    simp only [Res.ofOption_some, Res.status_ok, Res.bind_ok, Age.secsF64, he, if_pos hn]
    rfl

example : DigitText s!!"0042" 42 := ⟨by decide, by unfold Digits; decide, by decide⟩
example : ContentLength.fromHeaders (oneHeader s!!"content-length" s!!"0042") = .ok (some 42) := by decide +kernel

/-- A sign before the digits, which is not allowed, is accepted in all three: two readers of the same message may
disagree on the length of its body. -/
theorem C98_violated_sign {v : Str} {n : Nat} (hd : DigitText v n) (hn : n < 2 ^ 64) (h : Headers) (vs : List Str) :
    (¬ ∃ m, DigitText ('+' :: v) m) ∧
    (h.get s!!"content-length" = some (vs ++ ['+' :: v]) → ContentLength.fromHeaders h = .ok (some n)) ∧
    (h.get s!!"retry-after" = some (vs ++ ['+' :: v]) → RetryAfter.fromHeaders h = .ok (some (.dur ⟨n, 0⟩))) ∧
    (n ≤ 2 ^ 53 → h.get s!!"age" = some (vs ++ ['+' :: v]) → Age.fromHeaders h = .ok (some ⟨n, 0⟩)) := by
  have hnum : Numeral ('+' :: v) n := ⟨v, hd.1, .inr rfl, hd.2.1, hd.2.2⟩
  refine ⟨?_, fun hg => ?_, fun hg => ?_, fun hs hg => ?_⟩
  · rintro ⟨m, -, h, -⟩
    have := h '+' (by simp)
    revert this
    decide
  · exact (((C42_reads h).2 vs _ hg).1 n).mpr ⟨hn, [], _, [], by simp, by simp, by simp, hnum⟩
  · exact (((C58_reads h).2 vs _ hg).1 ⟨n, 0⟩).mpr ⟨rfl, hn, hnum⟩
  · have hr : Age.fromHeaders h = _ := readLast_snoc hg
    rw [hr, parseUInt_iff.mpr ⟨hnum, show n < u64Max1 from hn⟩]
    have he : natToF64 n = n := (roundTo_eq_self_iff (by decide)).mpr (representable_of_lt hs (by decide))
    simp only [Res.ofOption_some, Res.status_ok, Res.bind_ok, Age.secsF64, he, if_pos hn]
    rfl

example : ContentLength.fromHeaders (oneHeader s!!"content-length" s!!"+5") = .ok (some 5) :=
  (C98_violated_sign (v := s!!"5") (n := 5) ⟨by decide, by unfold Digits; decide, by decide⟩ (by decide) _ []).2.1 (by decide)

theorem dateText_colon {s : Str} {f : Fields} (h : DateText s f) : ':' ∈ s := by
  rcases h with h | h | h
  · obtain ⟨w, d, y, t, -, -, -, ⟨a, b, c, rfl, -⟩, -, -, rfl⟩ := h
    simp
  · obtain ⟨w, d, y, t, yy, sep, -, -, -, ⟨a, b, c, rfl, -⟩, -, -, -, rfl⟩ := h
    simp
  · obtain ⟨w, d, y, t, -, -, -, ⟨a, b, c, rfl, -⟩, -, -, rfl⟩ := h
    simp

/-- A number too large for 64 bits, which counts as a very large one by RFC 7234 section 1.2.1, is refused. -/
theorem C98_violated_large {v : Str} {n : Nat} (hd : DigitText v n) (hn : 2 ^ 64 ≤ n) (h : Headers) (vs : List Str) :
    (h.get s!!"retry-after" = some (vs ++ [v]) → RetryAfter.fromHeaders h = .err 400) ∧
    (h.get s!!"age" = some (vs ++ [v]) → Age.fromHeaders h = .err 400) := by
  have hno : ¬ ∃ m, m < 2 ^ 64 ∧ Numeral v m := by
    rintro ⟨m, hm, hv⟩
    have := decValue_unique hd.2.1 hv
    rw [← hd.2.2] at this
    omega
  refine ⟨fun hg => ?_, fun hg => (C30_malformed h vs v hg).mpr hno⟩
  obtain ⟨h1, h2, h3⟩ := (C58_reads h).2 vs v hg
  rcases h3 with ⟨r, hr⟩ | h3
  · exfalso
    cases r with
    | dur d =>
      obtain ⟨-, a, b⟩ := (h1 d).mp hr
      exact hno ⟨_, a, b⟩
    | «at» t =>
      obtain ⟨a, -⟩ := (h2 t).mp hr
      obtain ⟨-, f, hf, -⟩ := parseHttpDate_iff.mp a
      have hc := dateText_colon hf
      have ht : Trimmed v := by
        apply trimmed_of_forall
        intro c hc
        exact isWs_of_isDigit (isDigit_iff_le.mpr (hd.2.1 c hc))
      rw [trim_of_trimmed ht] at hc
      exact digits_not_mem hd.2.1 (by decide) hc
  · exact h3

example : Age.fromHeaders (oneHeader s!!"age" s!!"18446744073709551616") = .err 400 :=
  (C98_violated_large (v := s!!"18446744073709551616") (n := 18446744073709551616)
    ⟨by decide, by unfold Digits; decide, by decide⟩ (by decide) _ []).2 (by decide)

/-! ### Expectations -/

/-- The expectation does not depend on case (RFC 7231 section 5.1.1), but is refused unless in lower case. -/
theorem C98_violated_expect {v : Str} (_hs : sameName v s!!"100-continue" = true) (hne : v ≠ s!!"100-continue")
    (h : Headers) (vs : List Str) (hg : h.get s!!"expect" = some (vs ++ [v])) : Expect.fromHeaders h = .err 400 := by
  have hr : Expect.fromHeaders h = _ := readLast_snoc hg
  rw [hr, if_neg hne]
  rfl

example : sameName s!!"100-Continue" s!!"100-continue" = true ∧
    Expect.fromHeaders (oneHeader s!!"expect" s!!"100-Continue") = .err 400 :=
  ⟨by decide, C98_violated_expect (v := s!!"100-Continue") (by decide) (by decide) _ [] (by decide)⟩

/-! ### Credentials -/

/-- Credentials with one space are read with scheme and text, whatever the case of the scheme. Missing: no
credentials, and more than one space; see below. -/
theorem C98_credentials_partial {t c : Str} {s : Scheme} (ht : Names t s) (h : Headers) (vs : List Str)
    (hg : h.get s!!"authorization" = some (vs ++ [t ++ ' ' :: c])) : Authorization.fromHeaders h = .ok (some ⟨s, c⟩) :=
  (((C45_reads h).2 vs _ hg).1 ⟨s, c⟩).mpr ⟨t, rfl, ht⟩

example : Authorization.fromHeaders (oneHeader s!!"authorization" s!!"bEARER abc.def==") = .ok (some ⟨.bearer, s!!"abc.def=="⟩) :=
  C98_credentials_partial (t := s!!"bEARER") (names_iff.mpr (by decide)) _ [] (by decide)

theorem base64_digits {vs : List Nat} {digits : Str} (h : List.Forall₂ (fun v c => b64Alphabet[v]? = some c) vs digits) :
    ∀ c ∈ digits, c ∈ b64Alphabet := by
  induction h with
  | nil => simp
  | cons h1 _ ih =>
    intro c hc
    rcases List.mem_cons.mp hc with rfl | hc
    · exact List.mem_of_getElem? h1
    · exact ih c hc

theorem base64_no_space {cs : Str} {bs : List Byte} (h : Base64Text cs bs) : ' ' ∉ cs := by
  obtain ⟨vs, digits, k, z, rfl, hf, -⟩ := h
  rw [List.mem_append, not_or]
  refine ⟨fun hm => ?_, fun hm => ?_⟩
  · have := base64_digits hf ' ' hm
    revert this
    decide
  · rw [List.mem_replicate] at hm
    exact absurd hm.2 (by decide)

/-- The standard allows several spaces; the further ones become part of the credentials. Basic credentials are then
refused, whoever sent them. -/
theorem C98_violated_spaces {t c : Str} {s : Scheme} (k : Nat) (ht : Names t s) (hc : Token68 c) (h : Headers)
    (hg : h.get s!!"authorization" = some [t ++ (' ' :: List.replicate (k + 1) ' ' ++ c)]) :
    CredText (t ++ (' ' :: List.replicate (k + 1) ' ' ++ c)) s (some c) ∧
    Authorization.fromHeaders h = .ok (some ⟨s, List.replicate (k + 1) ' ' ++ c⟩) ∧
    BasicAuth.fromHeaders h = .err 400 := by
  have ha := C98_credentials_partial ht h [] (c := List.replicate (k + 1) ' ' ++ c) hg
  refine ⟨.token _ ht hc, ha, ?_⟩
  obtain ⟨h1, h2⟩ := (C46_reads h).2 [] _ hg
  rcases h2 with ⟨b, hb⟩ | h2
  · exfalso
    obtain ⟨cs, hcs, -, h64⟩ := (h1 b).mp hb
    have := (((C45_reads h).2 [] _ hg).1 ⟨.basic, cs⟩).mpr hcs
    rw [ha] at this
    simp only [Res.ok.injEq, Option.some.injEq, Authorization.mk.injEq] at this
    obtain ⟨-, rfl⟩ := this
    exact base64_no_space h64 (by simp [List.replicate_succ])
  · exact h2

example : BasicAuth.fromHeaders (oneHeader s!!"authorization" s!!"Basic  bm9yaTpzZWNyZXRfZmlzaCEh") = .err 400 :=
  (C98_violated_spaces (t := s!!"Basic") (c := s!!"bm9yaTpzZWNyZXRfZmlzaCEh") (s := .basic) 0 (names_iff.mpr (by decide))
    ⟨s!!"bm9yaTpzZWNyZXRfZmlzaCEh", 0, by simp, by decide, by decide⟩ _ (by decide)).2.2

/-- A scheme without credentials, which the standard allows, is refused. -/
theorem C98_violated_alone {t : Str} {s : Scheme} (ht : Names t s) (h : Headers) (vs : List Str)
    (hg : h.get s!!"authorization" = some (vs ++ [t])) : CredText t s none ∧ Authorization.fromHeaders h = .err 400 := by
  refine ⟨.alone ht, ?_⟩
  obtain ⟨h1, h2⟩ := (C45_reads h).2 vs t hg
  rcases h2 with ⟨a, ha⟩ | h2
  · exfalso
    obtain ⟨u, hu, -⟩ := (h1 a).mp ha
    exact names_no_space ht (by rw [hu]; simp)
  · exact h2

example : Authorization.fromHeaders (oneHeader s!!"authorization" s!!"Negotiate") = .err 400 :=
  (C98_violated_alone (t := s!!"Negotiate") (s := .negotiate) (names_iff.mpr (by decide)) _ [] (by decide)).2

/-- What Basic credentials are written as is of the grammar: the scheme, one space, and base64 as `token68`. -/
theorem C98_basic_written (b : BasicAuth) :
    ∃ c, b.headerValue = s!!"Basic" ++ ' ' :: c ∧ CredText b.headerValue .basic (some c) ∧
      Base64Text c (utf8Encode (b.username ++ ':' :: b.password)) := by
  have h64 := b64Encode_text (utf8Encode (b.username ++ s!!":" ++ b.password))
  have hn : Names s!!"Basic" .basic := names_iff.mpr (by decide)
  have hne : utf8Encode (b.username ++ s!!":" ++ b.password) ≠ [] := by
    intro e
    have := utf8Decode_encode (b.username ++ s!!":" ++ b.password)
    rw [e] at this
    simp [utf8Decode] at this
  refine ⟨b64Encode (utf8Encode (b.username ++ s!!":" ++ b.password)), by simp [BasicAuth.headerValue, Authorization.headerValue, Scheme.toStr], ?_, by simpa using h64⟩
  have ht : Token68 (b64Encode (utf8Encode (b.username ++ s!!":" ++ b.password))) := by
    obtain ⟨vs, digits, k, z, e, hf, hl, -⟩ := h64
    refine ⟨digits, k, e, ?_, ?_⟩
    · rintro rfl
      cases hf
      apply hne
      apply List.length_eq_zero_iff.mp
      rw [List.length_nil] at hl
      omega
    · intro c hc
      have : ∀ c ∈ b64Alphabet, c.isAlphanum = true ∨ c ∈ s!!"-._~+/" := by decide +kernel
      exact this c (base64_digits hf c hc)
  have := CredText.token 0 hn ht
  simpa [BasicAuth.headerValue, Authorization.headerValue, Scheme.toStr] using this

example : BasicAuth.headerValue ⟨s!!"nori", s!!"secret_fish!!"⟩ = s!!"Basic bm9yaTpzZWNyZXRfZmlzaCEh" := by decide +kernel

/-! ### Challenges -/

theorem escaped_quote {e v : Str} (h : Escaped e v) (hv : '"' ∉ v) : '"' ∉ e := escaped_not_mem h (by decide) hv

theorem escaped_length {e v : Str} (h : Escaped e v) : v.length ≤ e.length ∧ (e.length = v.length → '\\' ∉ e ∧ e = v) := by
  induction h with
  | nil => simp
  | @plain c s v h1 h2 _ ih =>
    refine ⟨by simp; exact ih.1, fun hl => ?_⟩
    obtain ⟨a, b⟩ := ih.2 (by simpa using hl)
    exact ⟨by simp only [List.mem_cons, not_or]; exact ⟨Ne.symm h2, a⟩, by rw [b]⟩
  | @pair c s v _ ih =>
    refine ⟨by simp; omega, fun hl => ?_⟩
    simp at hl
    omega

/-- The text before the first quote. -/
theorem until_quote_unique {a b x y : Str} (ha : '"' ∉ a) (hb : '"' ∉ b) (h : a ++ '"' :: x = b ++ '"' :: y) : a = b := by
  have h1 := splitOnce_append ha x
  rw [h, splitOnce_append hb] at h1
  simp only [Option.some.injEq, Prod.mk.injEq] at h1
  exact h1.1.symm

theorem drop_spaces {k : Nat} {ws p r : Str} {c : Char} (hws : ∀ c ∈ ws, isWs c = true) (hc : isWs c = false)
    (hp : ∃ x p', p = x :: p' ∧ isWs x = false) (h : List.replicate k ' ' ++ p = ws ++ c :: r) : p = c :: r := by
  obtain ⟨x, p', rfl, hx⟩ := hp
  induction k generalizing ws with
  | zero =>
    cases ws with
    | nil => simpa using h
    | cons w ws =>
      simp at h
      rw [h.1, hws w (by simp)] at hx
      cases hx
  | succ k ih =>
    cases ws with
    | nil =>
      simp [List.replicate_succ] at h
      rw [← h.1] at hc
      cases (show isWs ' ' = true by decide).symm.trans hc
    | cons w ws =>
      simp [List.replicate_succ] at h
      exact ih (ws := ws) (fun c hc => hws c (by simp [hc])) (by simpa using h.2)

/-- Of a challenge with parameters the realm is read exactly if it is the first parameter, its name is in lower
case, and its value is quoted and has no escapes. Missing: all other challenges; see below. -/
theorem C98_challenge_iff_partial {t p rest n r : Str} {s : Scheme} {k : Nat} {qs : List (Str × Str)} {realm : Str}
    (ht : Names t s) (hp : AuthParam p n r) (hr : Realm ((n, r) :: qs) realm) (h : Headers) (vs : List Str)
    (hg : h.get s!!"www-authenticate" = some (vs ++ [t ++ (' ' :: List.replicate k ' ' ++ (p ++ rest))])) :
    WwwAuthenticate.fromHeaders h = .ok (some ⟨s, realm⟩) ↔
      p = s!!"realm=\"" ++ realm ++ ['"'] ∧ '"' ∉ realm ∧ '\\' ∉ realm := by
  rw [((C47_reads h).2 vs _ hg).1]
  obtain ⟨hn, raw, hraw, hval⟩ := hp
  have hhead : ∃ x p', p ++ rest = x :: p' ∧ isWs x = false := by
    obtain ⟨h1, h2⟩ := hn
    cases n with
    | nil => exact absurd rfl h1
    | cons x n => exact ⟨x, n ++ '=' :: raw ++ rest, by simp [hraw], (tchar_not (h2 x (by simp))).1⟩
  have heqn : '=' ∉ n := Mime.token_not_mem hn (by decide)
  constructor
  · rintro ⟨t', ws, rest', he, ht', hws, hq⟩
    have hsp := splitOnce_append (names_no_space ht) (List.replicate k ' ' ++ (p ++ rest))
    have he' : t ++ ' ' :: (List.replicate k ' ' ++ (p ++ rest)) =
        t' ++ ' ' :: (ws ++ s!!"realm=\"" ++ realm ++ '"' :: rest') := by simpa using he
    rw [he', splitOnce_append (names_no_space ht')] at hsp
    simp only [Option.some.injEq, Prod.mk.injEq] at hsp
    have e1 : List.replicate k ' ' ++ (p ++ rest) = ws ++ 'r' :: (s!!"ealm=\"" ++ realm ++ '"' :: rest') := by
      rw [← hsp.2]; simp
    have e2 := drop_spaces hws (by decide) hhead e1
    have e3 : n ++ '=' :: (raw ++ rest) = s!!"realm" ++ '=' :: ('"' :: realm ++ '"' :: rest') := by
      have : p ++ rest = n ++ '=' :: (raw ++ rest) := by rw [hraw]; simp
      rw [← this, e2]
      simp
    have h2 := splitOnce_append heqn (raw ++ rest)
    rw [e3, splitOnce_append (by decide)] at h2
    simp only [Option.some.injEq, Prod.mk.injEq] at h2
    obtain ⟨hname, htail⟩ := h2
    have hr0 : r = realm := by
      obtain ⟨a, n', b, hab, hn', hno⟩ := hr
      cases a with
      | nil =>
        simp only [List.nil_append, List.cons.injEq, Prod.mk.injEq] at hab
        exact hab.1.2
      | cons q a =>
        simp only [List.cons_append, List.cons.injEq] at hab
        have := hno (n, r) (by rw [hab.1]; simp)
        rw [← hname] at this
        cases (show sameName s!!"realm" s!!"realm" = true by decide).symm.trans this
    subst hr0
    rcases hval with ⟨rfl, htok⟩ | ⟨e, rfl, hesc, -⟩
    · exfalso
      cases raw with
      | nil => exact htok.1 rfl
      | cons x raw =>
        simp at htail
        exact Mime.token_not_mem htok (c := '"') (by decide) (by rw [← htail.1]; simp)
    · have e4 : r ++ '"' :: rest' = e ++ '"' :: rest := by simpa using htail
      have e5 := until_quote_unique hq (escaped_quote hesc hq) e4
      subst e5
      obtain ⟨-, h6⟩ := escaped_length hesc
      exact ⟨by rw [hraw, ← hname]; simp, hq, (h6 rfl).1⟩
  · rintro ⟨rfl, hq, -⟩
    refine ⟨t, List.replicate k ' ', rest, by simp, ht, ?_, hq⟩
    intro c hc
    rw [List.mem_replicate] at hc
    rw [hc.2]
    decide

example : WwwAuthenticate.fromHeaders (oneHeader s!!"www-authenticate" s!!"digest  realm=\"a b\", nonce=x")
    = .ok (some ⟨.digest, s!!"a b"⟩) :=
  (C98_challenge_iff_partial (t := s!!"digest") (p := s!!"realm=\"a b\"") (rest := s!!", nonce=x") (n := s!!"realm") (r := s!!"a b")
    (k := 1) (qs := [(s!!"nonce", s!!"x")]) (names_iff.mpr (by decide))
    ⟨Mime.token_of (by decide) (by decide), s!!"\"a b\"", by simp, .inr ⟨s!!"a b", by simp, escaped_self (by decide) (by decide),
      fun c hc => (Mime.isQuotable_iff c).mp (by revert c; decide)⟩⟩
    ⟨[], _, _, rfl, by decide, by simp; decide⟩ _ [] (by decide)).mpr (by decide)

/-- A challenge whose first parameter is another one, or whose realm is written with a capital letter or as a token,
is refused. -/
theorem C98_violated_realm {t p rest n r : Str} {s : Scheme} {k : Nat} (ht : Names t s) (hp : AuthParam p n r)
    (hne : n ≠ s!!"realm" ∨ p = n ++ '=' :: r ∧ '"' ∉ r ++ rest) (h : Headers) (vs : List Str)
    (hg : h.get s!!"www-authenticate" = some (vs ++ [t ++ (' ' :: List.replicate k ' ' ++ (p ++ rest))])) :
    WwwAuthenticate.fromHeaders h = .err 400 := by
  obtain ⟨h1, h2⟩ := (C47_reads h).2 vs _ hg
  rcases h2 with ⟨a, ha⟩ | h2
  · exfalso
    obtain ⟨t', ws, rest', he, ht', hws, hq⟩ := (h1 a).mp ha
    obtain ⟨hn, raw, hraw, hval⟩ := hp
    have hhead : ∃ x p', p ++ rest = x :: p' ∧ isWs x = false := by
      obtain ⟨h1, h2⟩ := hn
      cases n with
      | nil => exact absurd rfl h1
      | cons x n => exact ⟨x, n ++ '=' :: raw ++ rest, by simp [hraw], (tchar_not (h2 x (by simp))).1⟩
    have heqn : '=' ∉ n := Mime.token_not_mem hn (by decide)
    have hsp := splitOnce_append (names_no_space ht) (List.replicate k ' ' ++ (p ++ rest))
    have he' : t ++ ' ' :: (List.replicate k ' ' ++ (p ++ rest)) =
        t' ++ ' ' :: (ws ++ s!!"realm=\"" ++ a.realm ++ '"' :: rest') := by simpa using he
    rw [he', splitOnce_append (names_no_space ht')] at hsp
    simp only [Option.some.injEq, Prod.mk.injEq] at hsp
    have e1 : List.replicate k ' ' ++ (p ++ rest) = ws ++ 'r' :: (s!!"ealm=\"" ++ a.realm ++ '"' :: rest') := by
      rw [← hsp.2]; simp
    have e2 := drop_spaces hws (by decide) hhead e1
    have e3 : n ++ '=' :: (raw ++ rest) = s!!"realm" ++ '=' :: ('"' :: a.realm ++ '"' :: rest') := by
      have : p ++ rest = n ++ '=' :: (raw ++ rest) := by rw [hraw]; simp
      rw [← this, e2]
      simp
    have h2 := splitOnce_append heqn (raw ++ rest)
    rw [e3, splitOnce_append (by decide)] at h2
    simp only [Option.some.injEq, Prod.mk.injEq] at h2
    rcases hne with hne | ⟨hpe, hno⟩
    · exact hne h2.1.symm
    · rw [hraw] at hpe
      have := List.append_cancel_left hpe
      simp only [List.cons.injEq, true_and] at this
      rw [← this, ← h2.2] at hno
      simp at hno
  · exact h2

example : WwwAuthenticate.fromHeaders (oneHeader s!!"www-authenticate" s!!"Digest nonce=x, realm=\"a\"") = .err 400 :=
  C98_violated_realm (t := s!!"Digest") (s := .digest) (p := s!!"nonce=x") (rest := s!!", realm=\"a\"") (n := s!!"nonce") (r := s!!"x") (k := 0)
    (names_iff.mpr (by decide)) ⟨Mime.token_of (by decide) (by decide), s!!"x", by simp, .inl ⟨rfl, Mime.token_of (by decide) (by decide)⟩⟩
    (.inl (by decide)) _ [] (by decide)
example : WwwAuthenticate.fromHeaders (oneHeader s!!"www-authenticate" s!!"Basic Realm=\"a\"") = .err 400 := by decide +kernel

/-- A realm with an escaped quote is cut off at the quote, and the backslash stays. -/
theorem C98_violated_realm_escape {t a b rest : Str} {s : Scheme} {k : Nat} (ht : Names t s) (ha : '"' ∉ a) (h : Headers)
    (vs : List Str) (hg : h.get s!!"www-authenticate" =
      some (vs ++ [t ++ (' ' :: List.replicate k ' ' ++ (s!!"realm=\"" ++ a ++ '\\' :: '"' :: b ++ '"' :: rest))])) :
    WwwAuthenticate.fromHeaders h = .ok (some ⟨s, a ++ ['\\']⟩) := by
  rw [((C47_reads h).2 vs _ hg).1]
  refine ⟨t, List.replicate k ' ', b ++ '"' :: rest, by simp, ht, ?_, by simpa using ha⟩
  intro c hc
  rw [List.mem_replicate] at hc
  rw [hc.2]
  decide

example : WwwAuthenticate.fromHeaders (oneHeader s!!"www-authenticate" s!!"Basic realm=\"a\\\"b\"")
    = .ok (some ⟨.basic, s!!"a\\"⟩) :=
  C98_violated_realm_escape (t := s!!"Basic") (a := s!!"a") (b := s!!"b") (rest := []) (k := 0) (names_iff.mpr (by decide))
    (by decide) _ [] (by decide)

theorem escaped_cons {x : Char} {e v : Str} (h : Escaped (x :: e) v) :
    (x ≠ '"' ∧ x ≠ '\\' ∧ ∃ v', v = x :: v' ∧ Escaped e v') ∨
    (x = '\\' ∧ ∃ c e' v', e = c :: e' ∧ v = c :: v' ∧ Escaped e' v') := by
  cases h with
  | plain h1 h2 h3 => exact .inl ⟨h1, h2, _, rfl, h3⟩
  | pair h => exact .inr ⟨rfl, _, _, _, rfl, rfl, h⟩

theorem escaped_backslashes {m : Str} : ∀ (n : Nat) (s : Str), s.length ≤ n → ∀ j,
    ¬ Escaped (s ++ '"' :: m) (List.replicate (j + 1) '\\' ++ s) := by
  intro n
  induction n with
  | zero =>
    intro s hs j h
    obtain rfl := List.length_eq_zero_iff.mp (Nat.le_zero.mp hs)
    rcases escaped_cons h with ⟨h1, -⟩ | ⟨h1, -⟩
    · exact h1 rfl
    · revert h1; decide
  | succ n ih =>
    intro s hs j h
    cases s with
    | nil =>
      rcases escaped_cons h with ⟨h1, -⟩ | ⟨h1, -⟩
      · exact h1 rfl
      · revert h1; decide
    | cons x s =>
      rcases escaped_cons (e := s ++ '"' :: m) h with ⟨-, h2, v', h3, -⟩ | ⟨rfl, c, e', v', he, hv, hesc⟩
      · simp [List.replicate_succ] at h3
        exact h2 h3.1.symm
      · rw [List.replicate_succ, List.cons_append, List.cons.injEq] at hv
        obtain ⟨rfl, rfl⟩ := hv
        cases s with
        | nil =>
          simp at he
        | cons y s =>
          simp at he
          obtain ⟨rfl, rfl⟩ := he
          have e : List.replicate j '\\' ++ '\\' :: '\\' :: s = List.replicate (j + 1 + 1) '\\' ++ s := by
            rw [List.replicate_succ' (n := j + 1), List.replicate_succ' (n := j)]
            simp
          rw [e] at hesc
          exact ih s (by simp at hs; omega) (j + 1) hesc

/-- No text that goes on with a quote after `s` stands for `s`. -/
theorem escaped_longer {m : Str} (s : Str) : ¬ Escaped (s ++ '"' :: m) s := by
  induction s with
  | nil =>
    intro h
    cases h
  | cons x s ih =>
    intro h
    rcases escaped_cons (e := s ++ '"' :: m) h with ⟨-, -, v', h3, h4⟩ | ⟨rfl, c, e', v', he, hv, hesc⟩
    · simp only [List.cons.injEq, true_and] at h3
      rw [← h3] at h4
      exact ih h4
    · simp only [List.cons.injEq] at hv
      obtain ⟨rfl, rfl⟩ := hv
      cases s with
      | nil => simp at he
      | cons y s =>
        simp at he
        obtain ⟨rfl, rfl⟩ := he
        exact escaped_backslashes s.length s (Nat.le_refl _) 0 (by simpa using hesc)

theorem escaped_no_quote {e v : Str} (h : Escaped e v) : '\\' ∉ e → '"' ∉ e := by
  induction h with
  | nil => simp
  | plain h1 _ _ ih =>
    intro h
    simp only [List.mem_cons, not_or] at h ⊢
    exact ⟨Ne.symm h1, ih h.2⟩
  | pair _ _ => intro h; simp at h

/-- A challenge that is written is of the grammar and means the realm it was given exactly if the realm needs no
escapes. -/
theorem C98_challenge_written_iff (a : WwwAuthenticate) :
    (∃ ps, ChallengeParams a.headerValue a.scheme ps ∧ Realm ps a.realm) ↔
      ∀ c ∈ a.realm, QuotedChar c ∧ c ≠ '"' ∧ c ≠ '\\' := by
  have hs : Names a.scheme.toStr a.scheme := names_iff.mpr ⟨by cases a.scheme <;> decide, rfl⟩
  constructor
  · rintro ⟨ps, ⟨t, k, p, ts, ht, hv, hf, -⟩, hr⟩
    cases hf with
    | @cons _ q _ qs hp _ =>
    obtain ⟨n, r⟩ := q
    obtain ⟨hn, raw, hraw, hval⟩ := hp
    simp only at hn hraw hval
    have hsp := splitOnce_append (names_no_space hs) (s!!"realm=\"" ++ a.realm ++ s!!"\", charset=\"UTF-8\"")
    have he : a.scheme.toStr ++ ' ' :: (s!!"realm=\"" ++ a.realm ++ s!!"\", charset=\"UTF-8\"") = a.headerValue := by
      simp [WwwAuthenticate.headerValue]
    rw [he, hv, List.cons_append, splitOnce_append (names_no_space ht)] at hsp
    simp only [Option.some.injEq, Prod.mk.injEq] at hsp
    obtain ⟨-, hsp⟩ := hsp
    rw [hraw] at hsp
    generalize ts.flatMap (fun x : Str × Str × Str => x.1 ++ ',' :: (x.2.1 ++ x.2.2)) = tail at hsp
    have hk : n ++ '=' :: raw ++ tail = 'r' :: (s!!"ealm=\"" ++ a.realm ++ s!!"\", charset=\"UTF-8\"") := by
      refine drop_spaces (k := k) (ws := []) (by simp) (by decide) ?_ (by simpa using hsp)
      obtain ⟨h1, h2⟩ := hn
      cases n with
      | nil => exact absurd rfl h1
      | cons x n => exact ⟨x, n ++ '=' :: raw ++ tail, by simp, (tchar_not (h2 x (by simp))).1⟩
    have h2 := splitOnce_append (Mime.token_not_mem hn (c := '=') (by decide)) (raw ++ tail)
    have hk' : n ++ '=' :: (raw ++ tail) = s!!"realm" ++ '=' :: ('"' :: (a.realm ++ '"' :: s!!", charset=\"UTF-8\"")) := by
      simpa using hk
    rw [hk', splitOnce_append (by decide)] at h2
    simp only [Option.some.injEq, Prod.mk.injEq] at h2
    obtain ⟨hname, htail⟩ := h2
    have hr0 : r = a.realm := by
      obtain ⟨x, n', b, hab, hn', hno⟩ := hr
      cases x with
      | nil =>
        simp only [List.nil_append, List.cons.injEq, Prod.mk.injEq] at hab
        exact hab.1.2
      | cons q x =>
        simp only [List.cons_append, List.cons.injEq] at hab
        have := hno (n, r) (by rw [hab.1]; simp)
        rw [← hname] at this
        cases (show sameName s!!"realm" s!!"realm" = true by decide).symm.trans this
    rcases hval with ⟨rfl, htok⟩ | ⟨e, rfl, hesc, hqc⟩
    · exfalso
      cases raw with
      | nil => exact htok.1 rfl
      | cons x raw =>
        simp at htail
        exact Mime.token_not_mem htok (c := '"') (by decide) (by rw [← htail.1]; simp)
    · have e4 : a.realm ++ '"' :: s!!", charset=\"UTF-8\"" = e ++ '"' :: tail := by simpa using htail
      rw [hr0] at hesc hqc
      rcases List.append_eq_append_iff.mp e4 with ⟨m, h1, h2⟩ | ⟨m, h1, h2⟩
      · cases m with
        | nil =>
          have : e = a.realm := by simpa using h1
          obtain ⟨-, h6⟩ := escaped_length hesc
          have h7 := (h6 (by rw [this])).1
          rw [this] at h7 hesc
          intro c hc
          refine ⟨hqc c hc, ?_, ?_⟩
          · rintro rfl
            exact escaped_no_quote hesc h7 hc
          · rintro rfl
            exact h7 hc
        | cons x m =>
          simp only [List.cons_append, List.cons.injEq] at h2
          rw [h1, ← h2.1] at hesc
          exact absurd hesc (escaped_longer a.realm)
      · obtain ⟨hl, h6⟩ := escaped_length hesc
        rw [h1, List.length_append] at hl
        have : m = [] := List.length_eq_zero_iff.mp (by omega)
        subst this
        have : e = a.realm := by simpa using h1.symm
        have h7 := (h6 (by rw [this])).1
        rw [this] at h7 hesc
        intro c hc
        refine ⟨hqc c hc, ?_, ?_⟩
        · rintro rfl
          exact escaped_no_quote hesc h7 hc
        · rintro rfl
          exact h7 hc
  · intro hq
    have tok : Token s!!"realm" := Mime.token_of (by decide) (by decide)
    refine ⟨[(s!!"realm", a.realm), (s!!"charset", s!!"UTF-8")], ⟨a.scheme.toStr, 0, s!!"realm=\"" ++ a.realm ++ ['"'],
      [([], [' '], s!!"charset=\"UTF-8\"")], hs, by simp [WwwAuthenticate.headerValue], ?_, by simp⟩, ?_⟩
    · refine .cons ⟨tok, '"' :: (a.realm ++ ['"']), by simp, .inr ⟨a.realm, rfl,
        escaped_self (fun h => (hq _ h).2.1 rfl) (fun h => (hq _ h).2.2 rfl), fun c hc => (hq c hc).1⟩⟩ (.cons ?_ .nil)
      exact ⟨Mime.token_of (by simp) (by decide), s!!"\"UTF-8\"", by simp, .inr ⟨s!!"UTF-8", by simp,
        escaped_self (by decide) (by decide), fun c hc => (Mime.isQuotable_iff c).mp (by revert c; decide)⟩⟩
    · exact ⟨[], s!!"realm", _, rfl, by decide, by simp; decide⟩

example : ∃ ps, ChallengeParams (WwwAuthenticate.headerValue ⟨.basic, s!!"a b"⟩) .basic ps ∧ Realm ps s!!"a b" :=
  (C98_challenge_written_iff ⟨.basic, s!!"a b"⟩).mpr
    (fun c hc => ⟨(Mime.isQuotable_iff c).mp (by revert c; decide), by revert c; decide, by revert c; decide⟩)

end HT
