import Verif.Lemmas.Base64
import Verif.Lemmas.Headers
import Verif.Lemmas.Typed
import Verif.Lemmas.Utf8

/-! Properties C45 (Authorization), C46 (Basic credentials) and C47 (WWW-Authenticate). -/

namespace HT

open Spec

theorem Scheme.fromStr_lower {t : Str} {s : Scheme} : Scheme.fromStr t = .ok s ↔ lower t = lower s.toStr := by
  unfold Scheme.fromStr
  generalize lower t = u
  constructor
  · intro h
    simp only at h
    by_cases h1 : u = s!!"basic"
    · rw [if_pos h1] at h; cases h; exact h1
    rw [if_neg h1] at h
    by_cases h2 : u = s!!"bearer"
    · rw [if_pos h2] at h; cases h; exact h2
    rw [if_neg h2] at h
    by_cases h3 : u = s!!"digest"
    · rw [if_pos h3] at h; cases h; exact h3
    rw [if_neg h3] at h
    by_cases h4 : u = s!!"hoba"
    · rw [if_pos h4] at h; cases h; exact h4
    rw [if_neg h4] at h
    by_cases h5 : u = s!!"mutual"
    · rw [if_pos h5] at h; cases h; exact h5
    rw [if_neg h5] at h
    by_cases h6 : u = s!!"negotiate"
    · rw [if_pos h6] at h; cases h; exact h6
    rw [if_neg h6] at h
    by_cases h7 : u = s!!"oauth"
    · rw [if_pos h7] at h; cases h; exact h7
    rw [if_neg h7] at h
    by_cases h8 : u = s!!"scram-sha-1"
    · rw [if_pos h8] at h; cases h; exact h8
    rw [if_neg h8] at h
    by_cases h9 : u = s!!"scram-sha-256"
    · rw [if_pos h9] at h; cases h; exact h9
    rw [if_neg h9] at h
    by_cases h10 : u = s!!"vapid"
    · rw [if_pos h10] at h; cases h; exact h10
    rw [if_neg h10] at h
    cases h
  · rintro rfl
    cases s <;> decide +kernel

theorem Scheme.clean (t : Str) : (Scheme.fromStr t).Clean 400 := by
  unfold Scheme.fromStr
  simp only
  have step : ∀ (p : Prop) [Decidable p] (a : Scheme) (r : Res Scheme), r.Clean 400 →
      (if p then .ok a else r : Res Scheme).Clean 400 := by
    intro p _ a r hr
    split
    · exact .inl ⟨a, rfl⟩
    · exact hr
  iterate 10 apply step
  exact .inr rfl

theorem names_iff {t : Str} {s : Scheme} : Names t s ↔ isAscii t = true ∧ lower t = lower s.toStr := by
  have hmem : (s, s.toStr) ∈ schemeNames := by cases s <;> decide
  have huniq : ∀ e ∈ schemeNames, e.2 = e.1.toStr := by decide
  have hasc : isAscii s.toStr = true := by cases s <;> decide
  constructor
  · rintro ⟨e, he, rfl, hs⟩
    have := (sameName_iff _ _).mp hs
    rw [huniq e he] at this
    exact ⟨this.2.1, this.2.2.symm⟩
  · rintro ⟨h1, h2⟩
    exact ⟨_, hmem, rfl, (sameName_iff _ _).mpr ⟨hasc, h1, h2.symm⟩⟩

theorem isAscii_of_lower {t u : Str} (h : lower t = u) (hu : isAscii u = true) : isAscii t = true := by
  subst h
  induction t with
  | nil => rfl
  | cons c t ih =>
    rw [show lower (c :: t) = lowerC c :: lower t from rfl, isAscii_cons, Bool.and_eq_true] at hu
    rw [isAscii_cons, Bool.and_eq_true]
    refine ⟨?_, ih hu.2⟩
    have := hu.1
    unfold isAsciiC at this ⊢
    rw [lowerC_toNat] at this
    simp only [decide_eq_true_eq] at this ⊢
    split at this <;> omega

theorem fromStr_iff {t : Str} {s : Scheme} : Scheme.fromStr t = .ok s ↔ Names t s := by
  rw [names_iff, Scheme.fromStr_lower]
  refine ⟨fun h => ⟨isAscii_of_lower h ?_, h⟩, fun h => h.2⟩
  cases s <;> decide

theorem names_no_space {t : Str} {s : Scheme} (h : Names t s) : ' ' ∉ t := by
  intro hm
  have hl : lowerC ' ' ∈ lower t := List.mem_map_of_mem hm
  rw [(names_iff.mp h).2] at hl
  have : lowerC ' ' ∉ lower s.toStr := by cases s <;> decide
  exact this hl

theorem splitn2_eq_pair {c : Char} {v a b : Str} : splitn2 c v = [a, b] ↔ v = a ++ c :: b ∧ c ∉ a := by
  unfold splitn2
  constructor
  · intro h
    cases hs : splitOnce c v with
    | none => rw [hs] at h; simp at h
    | some p =>
      rw [hs] at h
      obtain ⟨x, y⟩ := p
      simp only [List.cons.injEq, and_true] at h
      obtain ⟨rfl, rfl⟩ := h
      exact splitOnce_eq_some hs
  · rintro ⟨rfl, hc⟩
    rw [splitOnce_append hc]

theorem splitn2_cases (c : Char) (v : Str) : splitn2 c v = [v] ∧ c ∉ v ∨ ∃ a b, splitn2 c v = [a, b] := by
  unfold splitn2
  cases hs : splitOnce c v with
  | none => exact .inl ⟨rfl, splitOnce_eq_none.mp hs⟩
  | some p => exact .inr ⟨p.1, p.2, rfl⟩

theorem Authorization.parse_iff (v : Str) (a : Authorization) : Authorization.parse v = .ok a ↔ AuthText v a := by
  unfold Authorization.parse
  constructor
  · intro h
    rcases splitn2_cases ' ' v with ⟨hs, _⟩ | ⟨x, y, hs⟩
    · rw [hs] at h; simp at h
    · rw [hs] at h
      simp only at h
      rw [Res.bind_eq_ok_iff] at h
      obtain ⟨s, hs', he⟩ := h
      cases he
      exact ⟨x, (splitn2_eq_pair.mp hs).1, fromStr_iff.mp hs'⟩
  · rintro ⟨t, rfl, hn⟩
    rw [splitn2_eq_pair.mpr ⟨rfl, names_no_space hn⟩]
    simp only
    rw [fromStr_iff.mpr hn]
    rfl

theorem Authorization.clean (v : Str) : (Authorization.parse v).Clean 400 := by
  unfold Authorization.parse
  rcases splitn2_cases ' ' v with ⟨hs, _⟩ | ⟨x, y, hs⟩
  · rw [hs]; exact .inr rfl
  · rw [hs]
    exact clean_bind (Scheme.clean x) fun a _ => .inl ⟨_, rfl⟩

/-- C45 (reading): reading looks at the last value; it succeeds exactly on a scheme name in any letter
case, one space, and the credentials (everything after that space), and otherwise fails with 400; it
never panics. -/
theorem C45_reads (h : Headers) :
    (h.get Authorization.NAME = none → Authorization.fromHeaders h = .ok none) ∧
    ∀ vs v, h.get Authorization.NAME = some (vs ++ [v]) →
      (∀ a, Authorization.fromHeaders h = .ok (some a) ↔ AuthText v a) ∧
      ((∃ a, Authorization.fromHeaders h = .ok (some a)) ∨ Authorization.fromHeaders h = .err 400) := by
  refine ⟨fun hn => readLast_none hn, fun vs v hv => ?_⟩
  have he : Authorization.fromHeaders h = (Authorization.parse v).map some := readLast_snoc hv
  rw [he]
  rcases Authorization.clean v with ⟨a, ha⟩ | ha
  · rw [ha]
    refine ⟨fun b => ?_, .inl ⟨a, rfl⟩⟩
    rw [← Authorization.parse_iff, ha]
    simp [Res.map]
  · rw [ha]
    refine ⟨fun b => ?_, .inr rfl⟩
    rw [← Authorization.parse_iff, ha]
    simp [Res.map]

example : AuthText s!!"bEARER a b" ⟨.bearer, s!!"a b"⟩ := ⟨s!!"bEARER", rfl, (.bearer, s!!"Bearer"), by decide, rfl, by decide⟩
example : Authorization.fromHeaders [(s!!"authorization", [s!!"x", s!!"SCRAM-SHA-1  q"])]
    = .ok (some ⟨.scramSha1, s!!" q"⟩) := by decide +kernel
example : Authorization.fromHeaders [(s!!"authorization", [s!!"Basic"])] = .err 400 := by decide +kernel
example : Authorization.fromHeaders [(s!!"authorization", [s!!"Nope x"])] = .err 400 := by decide +kernel

/-- C45 (round-trip): for every scheme and all ASCII credentials. -/
theorem C45_round_trip (a : Authorization) (ha : Ascii a.credentials) :
    RoundTrips Authorization.NAME (.ok a.headerValue) Authorization.fromHeaders a := by
  refine roundTrips_readLast a.headerValue rfl ?_ ?_
  · unfold Authorization.headerValue
    rw [isAscii_append, isAscii_append, (spec_ascii_iff _).mp ha]
    cases a.scheme <;> decide
  · rw [Authorization.parse_iff]
    refine ⟨a.scheme.toStr, by simp [Authorization.headerValue], names_iff.mpr ⟨?_, rfl⟩⟩
    cases a.scheme <;> decide

example : RoundTrips Authorization.NAME (.ok s!!"vapid k=1 t=2") Authorization.fromHeaders ⟨.vapid, s!!"k=1 t=2"⟩ :=
  C45_round_trip ⟨.vapid, s!!"k=1 t=2"⟩ (by decide)

/-- C45 (any credentials): credentials that are not ASCII also read back when the collection holds
the written value, but that value is then not ASCII. -/
theorem C45_any_credentials (a : Authorization) (h : Headers)
    (hv : h.get Authorization.NAME = some [a.headerValue]) :
    Authorization.fromHeaders h = .ok (some a) ∧ (Ascii a.headerValue ↔ Ascii a.credentials) := by
  have hp : Authorization.parse a.headerValue = .ok a := by
    rw [Authorization.parse_iff]
    refine ⟨a.scheme.toStr, by simp [Authorization.headerValue], names_iff.mpr ⟨?_, rfl⟩⟩
    cases a.scheme <;> decide
  constructor
  · have : Authorization.fromHeaders h = (Authorization.parse a.headerValue).map some :=
      readLast_snoc (vs := []) hv
    rw [this, hp]
    rfl
  · rw [spec_ascii_iff, spec_ascii_iff]
    unfold Authorization.headerValue
    rw [isAscii_append]
    have : isAscii (a.scheme.toStr ++ s!!" ") = true := by cases a.scheme <;> decide
    rw [this, Bool.true_and]

example : Headers.get [(s!!"authorization", [s!!"Basic a, b"])] Authorization.NAME =
    some [(⟨.basic, s!!"a, b"⟩ : Authorization).headerValue] := by decide

/-! ### C46 -/

/-- C46 (base64): decoding accepts exactly the base64 texts, and gives the bytes they denote. -/
theorem C46_base64 (cs : Str) (bs : List Byte) : b64Decode cs = some bs ↔ Base64Text cs bs :=
  b64Decode_iff cs bs

example : b64Decode s!!"TWE=" = some [77, 97] := by decide +kernel
example : b64Decode s!!"TWE" = some [77, 97] := by decide +kernel
example : b64Decode s!!"TWF" = none := by decide +kernel
example : b64Decode s!!"TWE==" = none := by decide +kernel
example : b64Decode s!!"T===" = none := by decide +kernel
example : Base64Text s!!"TWE=" [77, 97] := (C46_base64 _ _).mp (by decide +kernel)

theorem BasicAuth.fromCredentials_iff (cs : Str) (b : BasicAuth) :
    BasicAuth.fromCredentials cs = .ok b ↔
      ':' ∉ b.username ∧ Base64Text cs (utf8Encode (b.username ++ ':' :: b.password)) := by
  unfold BasicAuth.fromCredentials
  constructor
  · intro h
    rw [Res.bind_eq_ok_iff] at h
    obtain ⟨bytes, h1, h⟩ := h
    rw [Res.bind_eq_ok_iff] at h
    obtain ⟨creds, h2, h⟩ := h
    rw [Res.status_eq_ok_iff, Res.ofOption_eq_ok_iff] at h1 h2
    rcases splitn2_cases ':' creds with ⟨hs, _⟩ | ⟨x, y, hs⟩
    · rw [hs] at h; simp at h
    · rw [hs] at h
      simp only [Res.ok.injEq] at h
      subst h
      obtain ⟨rfl, hx⟩ := splitn2_eq_pair.mp hs
      exact ⟨hx, by rw [utf8Decode_eq_some_iff.mp h2]; exact (b64Decode_iff _ _).mp h1⟩
  · rintro ⟨hx, hb⟩
    rw [(b64Decode_iff _ _).mpr hb]
    show Res.bind ((Res.ofOption 500 (utf8Decode (utf8Encode _))).status 400) _ = _
    rw [utf8Decode_encode]
    show (match splitn2 ':' _ with | [u, p] => Res.ok (⟨u, p⟩ : BasicAuth) | _ => .err 400) = _
    rw [splitn2_eq_pair.mpr ⟨rfl, hx⟩]

theorem BasicAuth.clean (cs : Str) : (BasicAuth.fromCredentials cs).Clean 400 := by
  unfold BasicAuth.fromCredentials
  refine clean_bind (clean_ofOption _) fun bytes _ => clean_bind (clean_ofOption _) fun creds _ => ?_
  rcases splitn2_cases ':' creds with ⟨hs, _⟩ | ⟨x, y, hs⟩
  · rw [hs]; exact .inr rfl
  · rw [hs]; exact .inl ⟨_, rfl⟩

/-- C46 (decoding): credentials are accepted exactly when they are base64 text of the UTF-8 of a
username without colon, a colon and a password, and otherwise fail with 400; no panic. -/
theorem C46_from_credentials (cs : Str) :
    (∀ b, BasicAuth.fromCredentials cs = .ok b ↔
      ':' ∉ b.username ∧ Base64Text cs (utf8Encode (b.username ++ ':' :: b.password))) ∧
    ((∃ b, BasicAuth.fromCredentials cs = .ok b) ∨ BasicAuth.fromCredentials cs = .err 400) :=
  ⟨BasicAuth.fromCredentials_iff cs, BasicAuth.clean cs⟩

example : BasicAuth.fromCredentials s!!"bm9yaTpzZWNyZXRfZmlzaCEh" = .ok ⟨s!!"nori", s!!"secret_fish!!"⟩ := by
  decide +kernel
example : BasicAuth.fromCredentials s!!"bm9yaQ==" = .err 400 := by decide +kernel
example : BasicAuth.fromCredentials s!!"/zo=" = .err 400 := by decide +kernel

/-- C46 (reading): the last `Authorization` value must be the Basic scheme with such credentials;
anything else fails with 400, and reading never panics. -/
theorem C46_reads (h : Headers) :
    (h.get Authorization.NAME = none → BasicAuth.fromHeaders h = .ok none) ∧
    ∀ vs v, h.get Authorization.NAME = some (vs ++ [v]) →
      (∀ b, BasicAuth.fromHeaders h = .ok (some b) ↔
        ∃ cs, AuthText v ⟨.basic, cs⟩ ∧ ':' ∉ b.username ∧
          Base64Text cs (utf8Encode (b.username ++ ':' :: b.password))) ∧
      ((∃ b, BasicAuth.fromHeaders h = .ok (some b)) ∨ BasicAuth.fromHeaders h = .err 400) := by
  obtain ⟨h1, h2⟩ := C45_reads h
  refine ⟨fun hn => ?_, fun vs v hv => ?_⟩
  · unfold BasicAuth.fromHeaders
    rw [h1 hn]
    rfl
  · obtain ⟨h3, h4⟩ := h2 vs v hv
    unfold BasicAuth.fromHeaders
    rcases h4 with ⟨a, ha⟩ | ha
    · have htext := (h3 a).mp ha
      have huniq : ∀ a', AuthText v a' → a' = a := fun a' ha' => by
        have := (h3 a').mpr ha'
        rw [ha] at this
        simpa using this.symm
      rw [ha]
      simp only [Res.bind]
      by_cases hs : a.scheme = .basic
      · rw [if_pos hs]
        rcases BasicAuth.clean a.credentials with ⟨b, hb⟩ | hb
        · rw [hb]
          refine ⟨fun b' => ?_, .inl ⟨b, rfl⟩⟩
          constructor
          · intro he
            simp only [Res.map, Res.ok.injEq, Option.some.injEq] at he
            subst he
            refine ⟨a.credentials, ?_, (BasicAuth.fromCredentials_iff _ _).mp hb⟩
            rw [← hs]; exact htext
          · rintro ⟨cs, ht, hb'⟩
            have := huniq _ ht
            subst this
            rw [(BasicAuth.fromCredentials_iff _ _).mpr hb'] at hb
            cases hb
            rfl
        · rw [hb]
          refine ⟨fun b' => ⟨fun he => by simp [Res.map] at he, ?_⟩, .inr rfl⟩
          rintro ⟨cs, ht, hb'⟩
          have := huniq _ ht
          subst this
          rw [(BasicAuth.fromCredentials_iff _ _).mpr hb'] at hb
          cases hb
      · rw [if_neg hs]
        refine ⟨fun b' => ⟨fun he => by simp at he, ?_⟩, .inr rfl⟩
        rintro ⟨cs, ht, _⟩
        have := huniq _ ht
        subst this
        exact absurd rfl hs
    · rw [ha]
      refine ⟨fun b' => ⟨fun he => by simp [Res.bind] at he, ?_⟩, .inr rfl⟩
      rintro ⟨cs, ht, _⟩
      have := (h3 _).mpr ht
      rw [ha] at this
      cases this

example : BasicAuth.fromHeaders [(s!!"authorization", [s!!"Bearer bm9yaTpzZWNyZXRfZmlzaCEh"])] = .err 400 := by
  decide +kernel

/-- C46 (round-trip): for every username without colon and every password, whatever characters. -/
theorem C46_round_trip_partial (b : BasicAuth) (hu : ':' ∉ b.username) :
    RoundTrips Authorization.NAME (.ok b.headerValue) BasicAuth.fromHeaders b := by
  refine roundTrips_of b.headerValue rfl ?_ fun h hg => ?_
  · have hb := b64Encode_ascii (utf8Encode (b.username ++ s!!":" ++ b.password))
    unfold BasicAuth.headerValue Authorization.headerValue
    rw [isAscii_append, hb]
    rfl
  · refine (((C46_reads h).2 [] _ hg).1 b).mpr ⟨_, ?_, hu, b64Encode_text _⟩
    refine ⟨s!!"Basic", ?_, _, List.mem_cons_self, rfl, by decide⟩
    simp [BasicAuth.headerValue, Authorization.headerValue, Scheme.toStr]

example : RoundTrips Authorization.NAME (.ok (BasicAuth.headerValue ⟨s!!"né", s!!"a:b"⟩)) BasicAuth.fromHeaders
    ⟨s!!"né", s!!"a:b"⟩ := C46_round_trip_partial _ (by decide)

/-- C46 is violated whenever the username contains a colon: the text up to the first colon is read
back as the username and the rest goes to the password. -/
theorem C46_violated_colon (u1 u2 p : Str) (hu : ':' ∉ u1) :
    RoundTrips Authorization.NAME (.ok (BasicAuth.headerValue ⟨u1 ++ ':' :: u2, p⟩)) BasicAuth.fromHeaders
      ⟨u1, u2 ++ ':' :: p⟩ := by
  have : BasicAuth.headerValue ⟨u1 ++ ':' :: u2, p⟩ = BasicAuth.headerValue ⟨u1, u2 ++ ':' :: p⟩ := by
    simp [BasicAuth.headerValue]
  rw [this]
  exact C46_round_trip_partial ⟨u1, u2 ++ ':' :: p⟩ hu

example : RoundTrips Authorization.NAME (.ok (BasicAuth.headerValue ⟨s!!"a:b", s!!"c"⟩)) BasicAuth.fromHeaders
    ⟨s!!"a", s!!"b:c"⟩ := C46_violated_colon s!!"a" s!!"b" s!!"c" (by decide)

/-! ### C47 -/

theorem untilQuote_iff (s r : Str) :
    WwwAuthenticate.untilQuote s = some r ↔ '"' ∉ r ∧ ∃ rest, s = r ++ '"' :: rest := by
  induction s generalizing r with
  | nil => simp [WwwAuthenticate.untilQuote]
  | cons c s ih =>
    unfold WwwAuthenticate.untilQuote
    by_cases hc : c = '"'
    · rw [if_pos hc]
      constructor
      · intro h; cases h
        exact ⟨by simp, s, by simp [hc]⟩
      · rintro ⟨hr, rest, he⟩
        cases r with
        | nil => rfl
        | cons d r =>
          obtain ⟨rfl, _⟩ := List.cons.inj he
          exact absurd (by simp [hc]) hr
    · rw [if_neg hc, Option.map_eq_some_iff]
      constructor
      · rintro ⟨r', h1, rfl⟩
        obtain ⟨h2, rest, h3⟩ := (ih r').mp h1
        refine ⟨?_, rest, by rw [h3]; rfl⟩
        simp only [List.mem_cons, not_or]
        exact ⟨fun h => hc h.symm, h2⟩
      · rintro ⟨hr, rest, he⟩
        cases r with
        | nil => exact absurd (List.cons.inj he).1 hc
        | cons d r =>
          obtain ⟨rfl, he'⟩ := List.cons.inj he
          simp only [List.mem_cons, not_or] at hr
          exact ⟨r, (ih r).mpr ⟨hr.2, rest, he'⟩, rfl⟩

theorem WwwAuthenticate.parse_iff (v : Str) (a : WwwAuthenticate) :
    WwwAuthenticate.parse v = .ok a ↔ ChallengeText v a := by
  unfold WwwAuthenticate.parse
  constructor
  · intro h
    rcases splitn2_cases ' ' v with ⟨hs, _⟩ | ⟨x, y, hs⟩
    · rw [hs] at h; simp at h
    · rw [hs] at h
      simp only at h
      rw [Res.bind_eq_ok_iff] at h
      obtain ⟨s, hs', h⟩ := h
      cases hp : stripPrefix s!!"realm=\"" (trimStart y) with
      | none => rw [hp] at h; cases h
      | some r =>
        rw [hp] at h
        simp only at h
        cases hq : WwwAuthenticate.untilQuote r with
        | none => rw [hq] at h; cases h
        | some realm =>
          rw [hq] at h
          cases h
          obtain ⟨h1, rest, h2⟩ := (untilQuote_iff _ _).mp hq
          obtain ⟨w, hw1, hw2⟩ := trimStart_suffix y
          refine ⟨x, w, rest, ?_, fromStr_iff.mp hs', hw2, h1⟩
          rw [(splitn2_eq_pair.mp hs).1, List.append_assoc, List.append_assoc, ← h2,
            ← stripPrefix_eq_some.mp hp, ← hw1]
  · rintro ⟨t, ws, rest, rfl, hn, hw, hr⟩
    rw [splitn2_eq_pair.mpr ⟨rfl, names_no_space hn⟩]
    simp only
    rw [fromStr_iff.mpr hn]
    simp only [Res.bind]
    rw [List.append_assoc, List.append_assoc, trimStart_ws_append hw, trimStart_of_head, stripPrefix_append]
    · simp only
      rw [(untilQuote_iff _ _).mpr ⟨hr, rest, rfl⟩]
    · intro c hc
      have : c = 'r' := by simpa using hc.symm
      subst this
      decide

theorem WwwAuthenticate.clean (v : Str) : (WwwAuthenticate.parse v).Clean 400 := by
  unfold WwwAuthenticate.parse
  rcases splitn2_cases ' ' v with ⟨hs, _⟩ | ⟨x, y, hs⟩
  · rw [hs]; exact .inr rfl
  · rw [hs]
    refine clean_bind (Scheme.clean x) fun s _ => ?_
    cases stripPrefix s!!"realm=\"" (trimStart y) with
    | none => exact .inr rfl
    | some r =>
      simp only
      cases WwwAuthenticate.untilQuote r with
      | none => exact .inr rfl
      | some r => exact .inl ⟨_, rfl⟩

/-- C47 (reading): reading looks at the last value; it succeeds exactly on a scheme name in any letter
case, a space, optional whitespace and a quoted realm, and otherwise fails with 400; it never panics. -/
theorem C47_reads (h : Headers) :
    (h.get WwwAuthenticate.NAME = none → WwwAuthenticate.fromHeaders h = .ok none) ∧
    ∀ vs v, h.get WwwAuthenticate.NAME = some (vs ++ [v]) →
      (∀ a, WwwAuthenticate.fromHeaders h = .ok (some a) ↔ ChallengeText v a) ∧
      ((∃ a, WwwAuthenticate.fromHeaders h = .ok (some a)) ∨ WwwAuthenticate.fromHeaders h = .err 400) := by
  refine ⟨fun hn => readLast_none hn, fun vs v hv => ?_⟩
  have he : WwwAuthenticate.fromHeaders h = (WwwAuthenticate.parse v).map some := readLast_snoc hv
  rw [he]
  rcases WwwAuthenticate.clean v with ⟨a, ha⟩ | ha
  · rw [ha]
    refine ⟨fun b => ?_, .inl ⟨a, rfl⟩⟩
    rw [← WwwAuthenticate.parse_iff, ha]
    simp [Res.map]
  · rw [ha]
    refine ⟨fun b => ?_, .inr rfl⟩
    rw [← WwwAuthenticate.parse_iff, ha]
    simp [Res.map]

example : WwwAuthenticate.fromHeaders [(s!!"www-authenticate", [s!!"basic   realm=\"x y\", z"])]
    = .ok (some ⟨.basic, s!!"x y"⟩) := by decide +kernel
example : WwwAuthenticate.fromHeaders [(s!!"www-authenticate", [s!!"Basic realm=\"x"])] = .err 400 := by decide +kernel

/-- What is read back for any realm `r ++ rest` whose first quote is after `r`. -/
theorem WwwAuthenticate.headerValue_text (s : Scheme) (realm r rest : Str) (hr : '"' ∉ r)
    (h : realm ++ s!!"\", charset=\"UTF-8\"" = r ++ '"' :: rest) :
    ChallengeText (WwwAuthenticate.headerValue ⟨s, realm⟩) ⟨s, r⟩ := by
  refine ⟨s.toStr, [], rest, ?_, names_iff.mpr ⟨by cases s <;> decide, rfl⟩, by simp, hr⟩
  unfold WwwAuthenticate.headerValue
  rw [List.append_assoc, h]
  simp

/-- C47 (round-trip): for every scheme and every ASCII realm without a quote. Missing: realms with a
quote, see `C47_violated_quote`. -/
theorem C47_round_trip_partial (a : WwwAuthenticate) (ha : Ascii a.realm) (hq : '"' ∉ a.realm) :
    RoundTrips WwwAuthenticate.NAME (.ok a.headerValue) WwwAuthenticate.fromHeaders a := by
  refine roundTrips_readLast a.headerValue rfl ?_ ?_
  · unfold WwwAuthenticate.headerValue
    rw [isAscii_append, isAscii_append, isAscii_append, (spec_ascii_iff _).mp ha]
    cases a.scheme <;> decide
  · exact (WwwAuthenticate.parse_iff _ _).mpr (WwwAuthenticate.headerValue_text a.scheme a.realm a.realm _ hq rfl)

example : RoundTrips WwwAuthenticate.NAME (.ok s!!"Digest realm=\"a\\b\", charset=\"UTF-8\"")
    WwwAuthenticate.fromHeaders ⟨.digest, s!!"a\\b"⟩ := C47_round_trip_partial ⟨.digest, s!!"a\\b"⟩ (by decide) (by decide)

/-- C47 is violated for every realm with a quote: only the part before the quote is read back. -/
theorem C47_violated_quote (s : Scheme) (r rest : Str) (hr : '"' ∉ r) (h : Headers)
    (hv : h.get WwwAuthenticate.NAME = some [WwwAuthenticate.headerValue ⟨s, r ++ '"' :: rest⟩]) :
    WwwAuthenticate.fromHeaders h = .ok (some ⟨s, r⟩) :=
  (((C47_reads h).2 [] _ hv).1 ⟨s, r⟩).mpr
    (WwwAuthenticate.headerValue_text s _ r (rest ++ s!!"\", charset=\"UTF-8\"") hr (by simp))

example : WwwAuthenticate.fromHeaders [(s!!"www-authenticate", [WwwAuthenticate.headerValue ⟨.basic, s!!"a\"b"⟩])]
    = .ok (some ⟨.basic, s!!"a"⟩) := by decide +kernel

end HT
