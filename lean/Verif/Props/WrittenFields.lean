import Verif.Spec.WrittenFields
import Verif.Props.WrittenPrefs
import Verif.Props.StdDate
import Verif.Props.Fields

/-!
C110: what numbers, dates and credentials write is read by others as what was put in.
-/

namespace HT
open Spec

/-! ### numbers -/

theorem digitText_only (n : Nat) : OnlyAs (DigitText (dec n)) n := by
  intro m
  constructor
  · rintro ⟨-, -, rfl⟩
    exact decValue_dec n
  · rintro rfl
    exact ⟨dec_ne_nil _, dec_isDigits _, (decValue_dec _).symm⟩

/-- C110: others read what `Content-Length` and `Age` write as the number that was put in, ages in whole seconds. -/
theorem C110_numbers : (∀ (n : Nat) (v : HeaderValue), ContentLength.value n = .ok v → OnlyAs (DigitText v) n) ∧
    ∀ (d : Duration) (v : HeaderValue), Age.value d = .ok v → OnlyAs (DigitText v) d.secs := by
  refine ⟨?_, ?_⟩
  · rintro n v ⟨⟩
    exact digitText_only n
  · rintro d v ⟨⟩
    exact digitText_only d.secs

example : ContentLength.value 0 = .ok s!!"0" ∧ Age.value ⟨90, 5⟩ = .ok s!!"90" := by decide +kernel

/-! ### dates -/

theorem real_standard {f : Fields} (h : f.Real) : f.Standard := by
  obtain ⟨h1, h2, h3, h4, h5, h6, h7, h8, h9⟩ := h
  exact ⟨h2, h3, h4, h5, h6, h7, h8, by omega⟩

/-- No text is in both of the layouts with a comma. -/
theorem imf_rfc850 {f g : Fields} {w w' : Nat} (hw : w < 7) (hw' : w' < 7) : f.written w .imf ≠ g.written w' .rfc850 := by
  intro h
  have a : ∀ w < 7, (shortDay w).length = 3 := by decide
  have b : ∀ w < 7, 3 < (longDay w).length ∧ (longDay w)[3]? ≠ some ',' := by decide
  have h1 : (f.written w .imf)[3]? = some ',' := by
    unfold Fields.written
    simp only [List.append_assoc]
    rw [List.getElem?_append_right (by rw [a w hw]), a w hw]
    simp
  have h2 : (g.written w' .rfc850)[3]? ≠ some ',' := by
    unfold Fields.written
    simp only [List.append_assoc]
    rw [List.getElem?_append_left (b w' hw').1]
    exact (b w' hw').2
  exact h2 (h ▸ h1)

/-- What is read of a date in the preferred layout. -/
theorem date_only {f now : Fields} (h : f.Real) : OnlyAs (DateAs now f.imf) f.instant := by
  have he : f.imf = f.written (weekday f.dayNumber) .imf := rfl
  have hs := real_standard h
  intro t
  constructor
  · rintro ⟨g, w, l, hg, hw, hv, -, ht⟩
    have hl : yearRead g l = g.year := by
      cases l with
      | rfc850 => exact absurd (he.symm.trans hv) (imf_rfc850 (weekday_lt _) hw)
      | imf => rfl
      | asctime => rfl
    have h1 := written_text hs (weekday_lt f.dayNumber) .imf
    have h2 := written_text hg hw l
    rw [hl, ← hv] at h2
    have h3 : f = g := dateText_unique (he ▸ h1) h2
    rw [ht, ← h3]
    exact moment_instant h.1
  · intro ht
    exact ⟨f, weekday f.dayNumber, .imf, hs, weekday_lt _, he, trivial, ht.trans (moment_instant h.1).symm⟩

theorem fmt_only {t : SysTime} {v : Str} (h : fmtHttpDate t = .ok v) (now : Fields) : OnlyAs (DateAs now v) t.secs := by
  by_cases hr : 0 ≤ t.secs ∧ t.secs < 253402300800
  · obtain ⟨f, hf, hi, he⟩ := fmtHttpDate_in hr.1 hr.2
    rw [he] at h
    cases h
    rw [← hi]
    exact date_only hf
  · rw [fmtHttpDate_out (by omega)] at h
    cases h

/-- C110: others read what `Date`, `Expires`, `Last-Modified`, `If-Modified-Since` and `If-Unmodified-Since` write as the
instant that was put in, in whole seconds, whenever they read it. -/
theorem C110_dates (d : DateHeader) (t : SysTime) (v : HeaderValue) (h : d.value t = .ok v) (now : Fields) :
    OnlyAs (DateAs now v) t.secs := by
  refine fmt_only ?_ now
  cases d <;> exact h

example : DateHeader.value .expires ⟨784111777, 5⟩ = .ok s!!"Sun, 06 Nov 1994 08:49:37 GMT" := by decide +kernel

/-- C110: others read what `Retry-After` writes as the delay or the instant that was put in, in whole seconds. -/
theorem C110_retry (r : RetryAfter) (v : HeaderValue) (h : r.value = .ok v) (now : Fields) :
    OnlyAs (RetryText now v) (match r with
      | .dur d => .inl d.secs
      | .at t => .inr t.secs) := by
  have apart : ∀ {v : Str} {n : Nat} {t : Int}, DigitText v n → ¬ DateAs now v t := by
    rintro v n t ⟨-, hd, -⟩ ⟨f, w, l, -, -, rfl, -⟩
    have : ' ' ∈ f.written w l := by cases l <;> simp [Fields.written]
    exact absurd (hd ' ' this) (by decide)
  cases r with
  | dur d =>
    cases h
    intro y
    constructor
    · rintro (⟨h⟩ | ⟨h⟩)
      · rw [(digitText_only d.secs _).mp h]
      · exact absurd h (apart ((digitText_only d.secs _).mpr rfl))
    · rintro rfl
      exact .delay ((digitText_only d.secs _).mpr rfl)
  | «at» t =>
    have ho := fmt_only h now
    intro y
    constructor
    · rintro (⟨h'⟩ | ⟨h'⟩)
      · exact absurd ((ho _).mpr rfl) (apart h')
      · rw [(ho _).mp h']
    · rintro rfl
      exact .date ((ho _).mpr rfl)

example : RetryAfter.value (.dur ⟨120, 7⟩) = .ok s!!"120" ∧
    RetryAfter.value (.at ⟨784111777, 5⟩) = .ok s!!"Sun, 06 Nov 1994 08:49:37 GMT" := by decide +kernel

/-! ### credentials -/

theorem names_toStr (s : Scheme) : Names s.toStr s := names_iff.mpr ⟨by cases s <;> decide, rfl⟩

theorem names_one {t : Str} {s s' : Scheme} (h : Names t s) (h' : Names t s') : s = s' := by
  have h1 := (names_iff.mp h).2.symm.trans (names_iff.mp h').2
  revert h1
  cases s <;> cases s' <;> decide

/-- C110 for `Authorization`: what others read is the scheme, and the credentials without the spaces they begin with. -/
theorem C110_credentials_read (a : Authorization) (s : Scheme) (c : Str) :
    CredentialsText a.headerValue (s, c) ↔ s = a.scheme ∧ CredBody c ∧ ∃ k, a.credentials = List.replicate k ' ' ++ c := by
  have hv : a.headerValue = a.scheme.toStr ++ ' ' :: a.credentials := by simp [Authorization.headerValue]
  constructor
  · rintro ⟨t, k, h1, h2, h3⟩
    rw [hv] at h2
    obtain ⟨e1, e2⟩ := cut_inj (names_no_space (names_toStr _)) (names_no_space h1) h2
    exact ⟨names_one h1 (e1 ▸ names_toStr _), h3, k, e2⟩
  · rintro ⟨rfl, h, k, hk⟩
    exact ⟨a.scheme.toStr, k, names_toStr _, by rw [hv, hk]; simp, h⟩

example : Authorization.headerValue ⟨.bearer, s!!"  abc"⟩ = s!!"Bearer   abc" := by decide

/-- C110 for `Authorization`: others read exactly the scheme and the credentials that were put in, if the credentials are
of the grammar, and only then. Partial: nothing makes sure that they are. -/
theorem C110_credentials_iff_partial (a : Authorization) :
    OnlyAs (CredentialsText a.headerValue) (a.scheme, a.credentials) ↔ CredBody a.credentials := by
  constructor
  · intro h
    exact ((C110_credentials_read a _ _).mp ((h _).mpr rfl)).2.1
  · rintro h ⟨s, c⟩
    rw [C110_credentials_read]
    constructor
    · rintro ⟨rfl, -, k, hk⟩
      cases k with
      | zero => rw [hk]; rfl
      | succ k => exact absurd (by rw [hk]; rfl) h.2.1
    · rintro h'
      cases h'
      exact ⟨rfl, h, 0, rfl⟩

example : CredBody s!!"abc.def==" ∧ (Authorization.headerValue ⟨.bearer, s!!"abc.def=="⟩ = s!!"Bearer abc.def==") :=
  ⟨⟨by decide, by decide, .inl ⟨s!!"abc.def", 2, rfl, by decide, by decide⟩⟩, rfl⟩

/-- C110 is violated by credentials that are not of the grammar: those that begin with spaces are read without them, and
those with a space after a token and no parameter are not read at all. -/
theorem C110_violated_credentials (s : Scheme) (k : Nat) (c : Str) (h : CredBody c) :
    OnlyAs (CredentialsText (Authorization.headerValue ⟨s, List.replicate (k + 1) ' ' ++ c⟩)) (s, c) ∧
    ∀ a b : Str, Token a → '=' ∉ b → ∀ x,
      ¬ CredentialsText (Authorization.headerValue ⟨s, a ++ ' ' :: b⟩) x := by
  refine ⟨?_, ?_⟩
  · rintro ⟨s', c'⟩
    rw [C110_credentials_read]
    simp only
    constructor
    · rintro ⟨rfl, h', k', hk⟩
      have key : ∀ {m n : Nat} {c c' : Str}, c.head? ≠ some ' ' → c'.head? ≠ some ' ' →
          List.replicate m ' ' ++ c = List.replicate n ' ' ++ c' → c = c' := by
        intro m
        induction m with
        | zero =>
          intro n c c' h1 h2 he
          cases n with
          | zero => exact he
          | succ n => exact absurd (by rw [show c = _ from he]; rfl) h1
        | succ m ih =>
          intro n c c' h1 h2 he
          cases n with
          | zero => exact absurd (by rw [show c' = _ from he.symm]; rfl) h2
          | succ n => exact ih h1 h2 (List.cons.inj he).2
      rw [key h'.2.1 h.2.1 hk.symm]
    · rintro h'
      cases h'
      exact ⟨rfl, h, k + 1, rfl⟩
  · rintro a b ha hb ⟨s', c⟩ hx
    obtain ⟨-, hc, k, hk⟩ := (C110_credentials_read _ _ _).mp hx
    simp only at hk
    have hk0 : k = 0 := by
      cases k with
      | zero => rfl
      | succ k =>
        cases a with
        | nil => exact absurd rfl ha.1
        | cons x xs => exact absurd (List.cons.inj hk).1 (by rintro rfl; exact Mime.token_not_mem ha (c := ' ') (by decide) (by simp))
    subst hk0
    rw [List.replicate_zero, List.nil_append] at hk
    rw [← hk] at hc
    have heq : '=' ∉ a ++ ' ' :: b := by
      simp only [List.mem_append, List.mem_cons, not_or]
      exact ⟨Mime.token_not_mem ha (by decide), by decide, hb⟩
    rcases hc.2.2 with ⟨d, j, hd, -, hall⟩ | ⟨ps, ms, hl, -⟩
    · have hj : j = 0 := by
        cases j with
        | zero => rfl
        | succ j => exact absurd (by rw [hd]; simp) heq
      subst hj
      have hs : ' ' ∈ d := by
        have : ' ' ∈ a ++ ' ' :: b := by simp
        rw [hd] at this
        simpa using this
      exact absurd (hall ' ' hs) (by decide)
    · obtain ⟨qs, -, hj, hf⟩ := listed_value hl
      obtain ⟨x, hx⟩ := List.exists_mem_of_ne_nil _ ha.1
      have hxv : x ∈ join [','] qs := by rw [← hj]; simp [hx]
      have hbad : ∀ d : Char, Mime.isToken d = false → x ≠ d := by
        rintro d hd rfl
        exact Mime.token_not_mem ha hd hx
      refine not_mem_joined (fun h => hbad ',' (by decide) (List.mem_singleton.mp h)) (fun q hq h => ?_) hxv
      · obtain ⟨m, -, e, t, g, he, hg, rfl, ht⟩ := forall₂_imp_mem hf q hq
        cases m with
        | none =>
          rw [show t = [] from ht] at h
          simp only [List.nil_append, List.mem_append] at h
          rcases h with h | h
          · rcases he x h with h | h
            · exact hbad ' ' (by decide) h
            · exact hbad '\t' (by decide) h
          · rcases hg x h with h | h
            · exact hbad ' ' (by decide) h
            · exact hbad '\t' (by decide) h
        | some p =>
          obtain ⟨-, raw, ht, -⟩ := ht
          refine heq ?_
          rw [hj]
          exact mem_joined hq (by rw [ht]; simp)

example : Authorization.headerValue ⟨.bearer, s!!" abc"⟩ = s!!"Bearer  abc" ∧
    Authorization.headerValue ⟨.bearer, s!!"Bearer abc"⟩ = s!!"Bearer Bearer abc" ∧ Token s!!"Bearer" :=
  ⟨rfl, rfl, Mime.token_of (by decide) (by decide)⟩

/-! ### Basic credentials -/

theorem token68_body {c : Str} (h : Token68 c) : CredBody c := by
  refine ⟨?_, ?_, .inl h⟩ <;> obtain ⟨a, k, rfl, hn, hall⟩ := h
  · simp [hn]
  · cases a with
    | nil => exact absurd rfl hn
    | cons x xs =>
      simp only [List.cons_append, List.head?_cons, ne_eq, Option.some.injEq]
      rintro rfl
      exact absurd (hall ' ' (by simp)) (by decide)

/-- C110 for `Basic` credentials: what others read is the text up to the first colon as the user and the rest as the
password. -/
theorem C110_basic_read (b : BasicAuth) (x : Str × Str) :
    BasicText b.headerValue x ↔ x.1 ++ ':' :: x.2 = b.username ++ ':' :: b.password ∧ ':' ∉ x.1 := by
  obtain ⟨c, h1, h2, h3⟩ := C98_basic_written b
  have h4 : Token68 c := by
    clear h1
    generalize b.headerValue = v at h2
    cases h2
    assumption
  have h5 : b.headerValue = Authorization.headerValue ⟨.basic, c⟩ := by
    rw [h1]; simp [Authorization.headerValue, Scheme.toStr]
  have ho := (C110_credentials_iff_partial ⟨.basic, c⟩).mpr (token68_body h4)
  unfold BasicText
  rw [h5]
  constructor
  · rintro ⟨c', g1, g2, g3⟩
    have := (ho _).mp g1
    cases this
    have e := ((b64Decode_iff _ _).mpr g2).symm.trans ((b64Decode_iff _ _).mpr h3)
    exact ⟨utf8Encode_injective (Option.some.inj e), g3⟩
  · rintro ⟨e, g3⟩
    exact ⟨c, (ho _).mpr rfl, by rw [e]; exact h3, g3⟩

example : BasicAuth.headerValue ⟨s!!"a:b", s!!"c"⟩ = BasicAuth.headerValue ⟨s!!"a", s!!"b:c"⟩ := by decide +kernel

/-- C110 for `Basic` credentials: others read the user and the password that were put in, if the user has no colon, and
only then. Partial: nothing makes sure of that. -/
theorem C110_basic_iff_partial (b : BasicAuth) : OnlyAs (BasicText b.headerValue) (b.username, b.password) ↔ ':' ∉ b.username := by
  constructor
  · intro h
    exact ((C110_basic_read b _).mp ((h _).mpr rfl)).2
  · rintro h ⟨u, p⟩
    rw [C110_basic_read]
    constructor
    · rintro ⟨e, g⟩
      obtain ⟨rfl, rfl⟩ := cut_inj g h e
      rfl
    · rintro h'
      cases h'
      exact ⟨rfl, h⟩

example : BasicAuth.headerValue ⟨s!!"nori", s!!"secret:fish"⟩ = s!!"Basic bm9yaTpzZWNyZXQ6ZmlzaA==" := by decide +kernel

/-- C110 is violated by users with a colon: the user that others read is another one, and the rest is taken for a part of
the password. -/
theorem C110_violated_colon (u w p : Str) (h : ':' ∉ u) :
    OnlyAs (BasicText (BasicAuth.headerValue ⟨u ++ ':' :: w, p⟩)) (u, w ++ ':' :: p) := by
  rintro ⟨u', p'⟩
  rw [C110_basic_read]
  simp only [List.append_assoc, List.cons_append]
  constructor
  · rintro ⟨e, g⟩
    obtain ⟨rfl, rfl⟩ := cut_inj g h e
    rfl
  · rintro h'
    cases h'
    exact ⟨rfl, h⟩

example : BasicAuth.headerValue ⟨s!!"admin:x", s!!"y"⟩ = BasicAuth.headerValue ⟨s!!"admin", s!!"x:y"⟩ := by decide +kernel

end HT
