import Verif.Spec.Vocab
import Verif.Props.Mime
import Verif.Props.Body
import Verif.Props.Cache

/-! Vocabularies and small queries: C70, C71, C72, C73. -/

namespace HT
open Spec

/-! ### C70: which cache directives are valid where -/

theorem split_first {c : Char} {s n : Str} {ps : List Str} (h : split c s = n :: ps) : s.takeWhile (· ≠ c) = n := by
  induction s generalizing n ps with
  | nil => cases h; rfl
  | cons a s ih =>
    unfold split at h
    by_cases ha : a = c
    · rw [if_pos ha] at h
      simp only [List.cons.injEq] at h
      obtain ⟨rfl, -⟩ := h
      simp [ha]
    · rw [if_neg ha] at h
      cases hs : split c s with
      | nil => exact absurd hs (split_ne_nil _ _)
      | cons p qs =>
        rw [hs] at h
        simp only [List.cons.injEq] at h
        obtain ⟨rfl, -⟩ := h
        rw [List.takeWhile_cons_of_pos (by simpa using ha), ih hs]

theorem lookup_mem_of {β : Type} {l : List (Str × β)} {k : Str} {b : β} (h : l.lookup k = some b) : (k, b) ∈ l := by
  induction l with
  | nil => cases h
  | cons p l ih =>
    obtain ⟨a, c⟩ := p
    rw [List.lookup_cons] at h
    cases hk : k == a with
    | true =>
      rw [hk] at h
      simp only [Option.some.injEq] at h
      subst h
      rw [beq_iff_eq.mp hk]
      simp
    | false =>
      rw [hk] at h
      exact List.mem_cons_of_mem _ (ih h)

/-- The claim of C70 for a word and a directive. -/
def WordFits (n : Str) (d : CacheDirective) : Prop :=
  (d.validInReq = true ↔ n ∈ requestWords) ∧ (d.validInRes = true ↔ n ∈ responseWords ∧ n ≠ s!!"immutable")

theorem timed_fits : ∀ p ∈ cacheTimed, ∀ x, WordFits p.1 (p.2 x) := by
  intro p hp x
  simp only [cacheTimed, List.mem_cons, List.not_mem_nil, or_false] at hp
  rcases hp with rfl | rfl | rfl | rfl | rfl | rfl
  all_goals constructor
  all_goals first | exact iff_of_true rfl (by decide) | exact iff_of_false Bool.false_ne_true (by decide)

theorem flags_fit : ∀ p ∈ cacheFlags, WordFits p.1 p.2 := by unfold WordFits; decide

theorem directive_words {t : Str} {d : CacheDirective} (h : CacheDirective.fromStr t = .ok (some d)) :
    WordFits (directiveWord t) d := by
  obtain ⟨next, parts, hs, hf⟩ := CacheDirective.fromStr_eq t
  have hw : directiveWord t = lower next := by
    apply split_first (ps := parts.map lower)
    rw [split_lower (by decide) (by decide), hs]
    rfl
  rw [hw]
  rw [hf] at h
  split at h
  · cases h
  · generalize lower next = n at h
    generalize parts.map lower = ps at h
    unfold CacheDirective.named at h
    cases hl : cacheFlags.lookup n with
    | some e =>
      rw [hl] at h
      cases h
      exact flags_fit _ (lookup_mem_of hl)
    | none =>
      rw [hl] at h
      simp only at h
      cases ht : cacheTimed.lookup n with
      | none => rw [ht] at h; cases h
      | some f =>
        rw [ht] at h
        simp only at h
        cases ps with
        | nil =>
          simp only at h
          split at h
          · rename_i hn
            subst hn
            cases h
            unfold WordFits
            decide
          · cases h
        | cons v ps =>
          simp only at h
          cases hv : CacheDirective.parseDur v with
          | ok x => rw [hv] at h; cases h; exact timed_fits _ (lookup_mem_of ht) x
          | err e => rw [hv] at h; cases h
          | panic => rw [hv] at h; cases h

/-- C70 (requests): a directive that was read is valid in requests exactly when RFC 7234 defines its word for
requests. -/
theorem C70_requests (t : Str) (d : CacheDirective) (h : CacheDirective.fromStr t = .ok (some d)) :
    d.validInReq = true ↔ directiveWord t ∈ requestWords := (directive_words h).1

example : CacheDirective.fromStr s!!" Max-Age=60" = .ok (some (.maxAge ⟨60, 0⟩)) ∧ (CacheDirective.maxAge ⟨60, 0⟩).validInReq = true := by
  decide

/-- C70 (responses): the same for responses, `immutable` apart. Missing: `immutable`, see
`C70_violated_immutable`. -/
theorem C70_responses_partial (t : Str) (d : CacheDirective) (h : CacheDirective.fromStr t = .ok (some d))
    (hi : directiveWord t ≠ s!!"immutable") : d.validInRes = true ↔ directiveWord t ∈ responseWords := by
  rw [(directive_words h).2]
  exact ⟨fun h => h.1, fun h => ⟨h, hi⟩⟩

example : CacheDirective.fromStr s!!" Max-Age=60" = .ok (some (.maxAge ⟨60, 0⟩)) ∧
    directiveWord s!!" Max-Age=60" = s!!"max-age" := by decide

/-- C70 (violated): `immutable` is a response directive (RFC 8246) but valid nowhere, however it was written. -/
theorem C70_violated_immutable (t : Str) (d : CacheDirective) (h : CacheDirective.fromStr t = .ok (some d))
    (hi : directiveWord t = s!!"immutable") : d.validInRes = false ∧ d.validInReq = false := by
  obtain ⟨h1, h2⟩ := directive_words h
  constructor
  · rw [← Bool.not_eq_true, h2]
    exact fun h => h.2 hi
  · rw [← Bool.not_eq_true, h1, hi]
    decide

example : CacheDirective.fromStr s!!"immutable" = .ok (some .immutable) := by decide

/-! ### C71: the words of a security policy -/

/-- C71: a policy built by one call of a method with one of the named sources says exactly: the directive the
method is named after, and that source as the standard writes it. -/
theorem C71_words (m : CspMethod) (s : Source) :
    (CspOp.step Csp.new (.add m s.asRef)).value.2 = hyphens (methodWord m) ++ s!!" " ++ sourceText s := by
  cases m <;> cases s <;> decide +kernel

example : (CspOp.step Csp.new (.add .scriptSrc Source.sameOrigin.asRef)).value.2 = s!!"script-src 'self'" := by decide +kernel

/-- C71: different methods write different directives, different sources different words. -/
theorem C71_distinct :
    (∀ m m' : CspMethod, m.directive = m'.directive → m = m') ∧ ∀ s s' : Source, s.asRef = s'.asRef → s = s' := by
  constructor
  · intro m m' h
    cases m <;> cases m' <;> first | rfl | exact absurd h (by decide)
  · intro m m' h
    cases m <;> cases m' <;> first | rfl | exact absurd h (by decide)

example : (CspOp.step Csp.new (.add .imgSrc Source.data.asRef)).value.2 = s!!"img-src data:" := by decide +kernel

/-! ### C72: media types of file extensions -/

theorem lookup_map {β γ : Type} (f : β → γ) (l : List (Str × β)) (k : Str) :
    (l.map fun p => (p.1, f p.2)).lookup k = (l.lookup k).map f := by
  induction l with
  | nil => rfl
  | cons p l ih =>
    obtain ⟨a, b⟩ := p
    rw [List.map_cons, List.lookup_cons, List.lookup_cons, ih]
    cases k == a <;> rfl

/-- C72: the media type of every string taken as a file extension, as it is printed: the one of the table, or none.
In particular an unknown, capitalised or dotted extension has none. -/
theorem C72_extension (ext : Str) : (Mime.fromExtension ext).map Mime.display = extensionTypes.lookup ext := by
  have : extensionTypes = Mime.extensions.map fun p => (p.1, p.2.display) := by decide +kernel
  rw [this, lookup_map]
  rfl

example : (Mime.fromExtension s!!"svg").map Mime.display = some s!!"image/svg+xml" := by decide +kernel
example : Mime.fromExtension s!!".svg" = none := by decide

/-- C72: the constants are printed as the types of the extensions and seven more, each once. -/
theorem C72_constants :
    (∀ t, t ∈ Mime.constants.map Mime.display ↔ t ∈ extensionTypes.map (·.2) ∨ t ∈ otherTypes) ∧
    (Mime.constants.map Mime.display).Nodup := by
  have h1 : ∀ t ∈ Mime.constants.map Mime.display, t ∈ extensionTypes.map (·.2) ∨ t ∈ otherTypes := by decide +kernel
  have h2 : ∀ t ∈ extensionTypes.map (·.2) ++ otherTypes, t ∈ Mime.constants.map Mime.display := by decide +kernel
  refine ⟨fun t => ⟨h1 t, fun h => h2 t (List.mem_append.mpr h)⟩, by decide +kernel⟩

example : s!!"image/svg+xml" ∈ Mime.constants.map Mime.display := by decide +kernel

/-- C72: what is given for an extension is a media type in its own right: its text parses back to it. -/
theorem C72_parses (ext : Str) (m : Mime) (h : Mime.fromExtension ext = some m) : Mime.parse m.display = .ok m := by
  have key : ∀ p ∈ Mime.extensions, Mime.parse p.2.display = .ok p.2 := by decide +kernel
  exact key (ext, m) (lookup_mem_of h)

example : Mime.fromExtension s!!"svg" = some Mime.SVG ∧ Mime.parse Mime.SVG.display = .ok Mime.SVG := by decide +kernel

/-! ### C73: emptiness of a body -/

variable {σ : Type}

/-- C73: whether a body is empty is known exactly when its length is, and says whether that is zero. -/
theorem C73_known (b : Body σ) :
    (b.isEmpty = some true ↔ b.len = some 0) ∧ (b.isEmpty = some false ↔ ∃ n, b.len = some (n + 1)) ∧
    (b.isEmpty = none ↔ b.len = none) := by
  obtain ⟨r, m, l, k⟩ := b
  cases l with
  | none => simp [Body.isEmpty, Body.len]
  | some n => cases n <;> simp [Body.isEmpty, Body.len]

example : (Body.fromBytes [] : Body (List Byte)).isEmpty = some true ∧ (Body.fromBytes [7]).isEmpty = some false := by decide

/-- C73: a body that says it is empty delivers nothing, whatever its reader does. -/
theorem C73_empty {I : ReaderI σ} (hI : Fits I) (s : σ) (len : Option Nat) (ns : List Nat)
    (h : (Body.fromReader s len).isEmpty = some true) :
    delivered (reads (Body.readerI I) (Body.fromReader s len) ns).1 = [] := by
  have hl : len = some 0 := (C73_known _).1.mp h
  have := (C08_bound hI s len ns).1 0 hl
  exact List.eq_nil_of_length_eq_zero (by omega)

example : (Body.fromReader ([1, 2, 3] : List Byte) (some 0)).isEmpty = some true := by decide

end HT
