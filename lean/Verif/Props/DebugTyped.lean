import Verif.Model.DebugTyped
import Verif.Props.Debug
import Verif.Lemmas.Float

/-!
C105: what `{:?}` prints of typed headers and media types.
-/

namespace HT
open Spec

/-- What follows a printed value. -/
def Stop (x : Str) : Prop := ∃ c t, x = c :: t ∧ c ∈ s!!", )]}"

theorem stop_cons {c : Char} (h : c ∈ s!!", )]}") (t : Str) : Stop (c :: t) := ⟨c, t, rfl, h⟩

/-- Among the values with `P`, the text tells the value if something follows that ends it. -/
def Told {α : Type} (P : α → Prop) (f : α → Str) : Prop :=
  ∀ a a' x x', P a → P a' → Stop x → Stop x' → f a ++ x = f a' ++ x' → a = a' ∧ x = x'

/-- All values. -/
def Any {α : Type} : α → Prop := fun _ => True

theorem SelfDelimited.told {α : Type} {P : α → Prop} {f : α → Str} (h : SelfDelimited f) : Told P f :=
  fun a a' x x' _ _ _ _ e => h a a' x x' e

theorem Told.inj {α : Type} {P : α → Prop} {f : α → Str} (h : Told P f) {a a' : α} (ha : P a) (ha' : P a') :
    f a = f a' ↔ a = a' :=
  ⟨fun e => (h a a' s!!" " s!!" " ha ha' (stop_cons (by decide) _) (stop_cons (by decide) _) (by rw [e])).1,
    fun e => by rw [e]⟩

theorem span_eq {p : Char → Prop} {w w' x x' : Str} (hw : ∀ c ∈ w, p c) (hw' : ∀ c ∈ w', p c)
    (hx : ∃ c t, x = c :: t ∧ ¬ p c) (hx' : ∃ c t, x' = c :: t ∧ ¬ p c) (h : w ++ x = w' ++ x') : w = w' ∧ x = x' := by
  induction w generalizing w' with
  | nil =>
    cases w' with
    | nil => exact ⟨rfl, h⟩
    | cons c' w' =>
      obtain ⟨c, t, rfl, hc⟩ := hx
      simp only [List.nil_append, List.cons_append, List.cons.injEq] at h
      exact absurd (hw' c' List.mem_cons_self) (h.1 ▸ hc)
  | cons c w ih =>
    cases w' with
    | nil =>
      obtain ⟨c', t, rfl, hc⟩ := hx'
      simp only [List.nil_append, List.cons_append, List.cons.injEq] at h
      exact absurd (hw c List.mem_cons_self) (h.1 ▸ hc)
    | cons c' w' =>
      simp only [List.cons_append, List.cons.injEq] at h
      obtain ⟨h1, h2⟩ := ih (fun d hd => hw d (List.mem_cons_of_mem _ hd)) (fun d hd => hw' d (List.mem_cons_of_mem _ hd)) h.2
      exact ⟨by rw [h.1, h1], h2⟩

theorem word_stop {w w' x x' : Str} (hw : ∀ c ∈ w, c ∉ s!!", )]}") (hw' : ∀ c ∈ w', c ∉ s!!", )]}")
    (hx : Stop x) (hx' : Stop x') (h : w ++ x = w' ++ x') : w = w' ∧ x = x' := by
  obtain ⟨c, t, e, hc⟩ := hx
  obtain ⟨c', t', e', hc'⟩ := hx'
  exact span_eq (p := fun c => c ∉ s!!", )]}") hw hw' ⟨c, t, e, fun h => h hc⟩ ⟨c', t', e', fun h => h hc'⟩ h

/-- Texts without the characters that end a value. -/
theorem told_word {α : Type} {P : α → Prop} {f : α → Str} (hw : ∀ a, P a → ∀ c ∈ f a, c ∉ s!!", )]}")
    (hi : ∀ a a', P a → P a' → f a = f a' → a = a') : Told P f := by
  intro a a' x x' ha ha' hx hx' h
  obtain ⟨h1, h2⟩ := word_stop (hw a ha) (hw a' ha') hx hx' h
  exact ⟨hi a a' ha ha' h1, h2⟩

theorem told_opt {α : Type} {P : α → Prop} {f : α → Str} (h : Told P f) : Told (fun o => ∀ a ∈ o, P a) (debugOpt f) := by
  intro a a' x x' ha ha' hx hx' e
  cases a with
  | none =>
    cases a' with
    | none => exact ⟨rfl, List.append_cancel_left e⟩
    | some a' => simp [debugOpt, debugTuple] at e
  | some a =>
    cases a' with
    | none => simp [debugOpt, debugTuple] at e
    | some a' =>
      simp only [debugOpt, debugTuple, List.append_assoc] at e
      obtain ⟨h1, h2⟩ := h a a' _ _ (ha a rfl) (ha' a' rfl) (stop_cons (by decide) _) (stop_cons (by decide) _)
        (List.append_cancel_left (List.append_cancel_left e))
      exact ⟨by rw [h1], (List.cons.inj h2).2⟩

theorem told_list {α : Type} {P : α → Prop} {f : α → Str} (h : Told P f) (h0 : ∀ a, ∃ d s, f a = d :: s ∧ d ≠ ']') :
    Told (fun as => ∀ a ∈ as, P a) fun as : List α => debugList (as.map f) := by
  intro as as' x x' ha ha' _ _ e
  simp only [debugList, List.append_assoc, List.cons_append, List.nil_append, List.cons.injEq, true_and] at e
  induction as generalizing as' with
  | nil =>
    cases as' with
    | nil => simpa [join] using e
    | cons a' as' =>
      obtain ⟨d, s, e', hd⟩ := h0 a'
      cases as' with
      | nil => simp [join, e'] at e; exact absurd e.1.symm hd
      | cons b' as' => simp [join, e'] at e; exact absurd e.1.symm hd
  | cons a as ih =>
    cases as' with
    | nil =>
      obtain ⟨d, s, e', hd⟩ := h0 a
      cases as with
      | nil => simp [join, e'] at e; exact absurd e.1 hd
      | cons b as => simp [join, e'] at e; exact absurd e.1 hd
    | cons a' as' =>
      have pa := ha a List.mem_cons_self
      have pa' := ha' a' List.mem_cons_self
      cases as with
      | nil =>
        cases as' with
        | nil =>
          obtain ⟨rfl, h1⟩ := h _ _ _ _ pa pa' (stop_cons (by decide) _) (stop_cons (by decide) _) e
          simpa using h1
        | cons b' as' =>
          simp only [List.map_cons, List.map_nil, join, List.append_assoc] at e
          obtain ⟨-, e⟩ := h _ _ _ _ pa pa' (stop_cons (by decide) _) (stop_cons (by decide) _) e
          simp at e
      | cons b as =>
        cases as' with
        | nil =>
          simp only [List.map_cons, List.map_nil, join, List.append_assoc] at e
          obtain ⟨-, e⟩ := h _ _ _ _ pa pa' (stop_cons (by decide) _) (stop_cons (by decide) _) e
          simp at e
        | cons b' as' =>
          simp only [List.map_cons, join, List.append_assoc] at e
          obtain ⟨rfl, h1⟩ := h _ _ _ _ pa pa' (stop_cons (by decide) _) (stop_cons (by decide) _) e
          obtain ⟨he, h2⟩ := ih (b' :: as') (fun a h => ha a (List.mem_cons_of_mem _ h))
            (fun a h => ha' a (List.mem_cons_of_mem _ h)) (by simpa using h1)
          exact ⟨by rw [he], h2⟩

theorem told_str (pr : Char → Bool) {P : Str → Prop} : Told P (debugStr pr) := (debugStr_delimited pr).told

theorem told_bool {P : Bool → Prop} : Told P debugBool :=
  told_word (fun a _ => by cases a <;> decide) fun a a' _ _ h => by cases a <;> cases a' <;> first | rfl | cases h

theorem dec_word (n : Nat) : ∀ c ∈ dec n, c ∉ s!!", )]}" := by
  intro c hc
  obtain ⟨d, hd, rfl⟩ := natStr_digits (by omega) n c hc
  clear hc
  revert d
  decide

theorem told_dec {P : Nat → Prop} : Told P dec :=
  told_word (fun a _ => dec_word a) fun a a' _ _ h => natStr_inj (by omega) (by omega) h

theorem trimZeros_spec (s : Str) : ∃ n, s = trimZeros s ++ List.replicate n '0' := by
  unfold trimZeros
  have h : ∀ s : Str, ∃ n, s = List.replicate n '0' ++ s.dropWhile (· == '0') := by
    intro s
    induction s with
    | nil => exact ⟨0, rfl⟩
    | cons c s ih =>
      obtain ⟨n, hn⟩ := ih
      by_cases hc : c = '0'
      · refine ⟨n + 1, ?_⟩
        rw [List.dropWhile_cons_of_pos (by simpa using hc), hc, List.replicate_succ, List.cons_append, ← hn]
      · exact ⟨0, by rw [List.dropWhile_cons_of_neg (by simpa using hc)]; rfl⟩
  obtain ⟨n, hn⟩ := h s.reverse
  refine ⟨n, ?_⟩
  have := congrArg List.reverse hn
  simpa using this

theorem trimZeros_inj {s t : Str} (hl : s.length = t.length) (h : trimZeros s = trimZeros t) : s = t := by
  obtain ⟨n, hn⟩ := trimZeros_spec s
  obtain ⟨m, hm⟩ := trimZeros_spec t
  have h1 := congrArg List.length hn
  have h2 := congrArg List.length hm
  rw [List.length_append, List.length_replicate] at h1 h2
  rw [hn, hm, h]
  rw [h] at h1
  have : n = m := by omega
  rw [this]


theorem dec_digit (n : Nat) : ∀ c ∈ dec n, c ∈ s!!"0123456789" := by
  intro c hc
  obtain ⟨d, hd, rfl⟩ := natStr_digits (by omega) n c hc
  clear hc
  revert d
  decide

theorem zpad_digit (k n : Nat) : ∀ c ∈ trimZeros (zpad k (dec n)), c ∈ s!!"0123456789" := by
  intro c hc
  obtain ⟨m, hm⟩ := trimZeros_spec (zpad k (dec n))
  have : c ∈ zpad k (dec n) := by rw [hm]; exact List.mem_append_left _ hc
  unfold zpad at this
  rcases List.mem_append.mp this with h | h
  · rw [(List.mem_replicate.mp h).2]; decide
  · exact dec_digit n c h

/-- The units, each with its number of digits after the point. -/
def units : List (Str × Nat) := [(s!!"s", 9), (s!!"ms", 6), (s!!"µs", 3), (s!!"ns", 1)]

theorem debugDecimal_inj {i f i' f' : Nat} {u u' : Str × Nat} (hu : u ∈ units) (hu' : u' ∈ units)
    (hf : f < 10 ^ u.2) (hf' : f' < 10 ^ u'.2) (h : debugDecimal i f u.2 u.1 = debugDecimal i' f' u'.2 u'.1) :
    i = i' ∧ f = f' ∧ u = u' := by
  have hone : ∀ u ∈ units, ∀ u' ∈ units, u.1 = u'.1 → u = u' := by decide
  have hnd : ∀ u ∈ units, ∃ c t, u.1 = c :: t ∧ c ∉ s!!"0123456789" ∧ c ≠ '.' := by
    intro u hu
    simp only [units, List.mem_cons, List.not_mem_nil, or_false] at hu
    rcases hu with rfl | rfl | rfl | rfl <;> exact ⟨_, _, rfl, by decide, by decide⟩
  have hpos : ∀ u ∈ units, 0 < u.2 := by decide
  obtain ⟨c, t, hc, hc1, hc2⟩ := hnd u hu
  obtain ⟨c', t', hc', hc1', hc2'⟩ := hnd u' hu'
  unfold debugDecimal at h
  rw [List.append_assoc, List.append_assoc] at h
  obtain ⟨h1, h2⟩ := span_eq (p := fun c => c ∈ s!!"0123456789") (dec_digit i) (dec_digit i')
    (by
      split
      · exact ⟨c, t, by rw [hc]; rfl, hc1⟩
      · exact ⟨'.', _, rfl, by decide⟩)
    (by
      split
      · exact ⟨c', t', by rw [hc']; rfl, hc1'⟩
      · exact ⟨'.', _, rfl, by decide⟩) h
  refine ⟨natStr_inj (by omega) (by omega) h1, ?_⟩
  by_cases hz : f = 0
  · by_cases hz' : f' = 0
    · rw [if_pos hz, if_pos hz'] at h2
      exact ⟨by omega, hone u hu u' hu' h2⟩
    · rw [if_pos hz, if_neg hz', hc] at h2
      exact absurd (List.cons.inj h2).1 hc2
  · by_cases hz' : f' = 0
    · rw [if_neg hz, if_pos hz', hc'] at h2
      exact absurd (List.cons.inj h2).1.symm hc2'
    · rw [if_neg hz, if_neg hz'] at h2
      have h3 := (List.cons.inj h2).2
      obtain ⟨h4, h5⟩ := span_eq (p := fun c => c ∈ s!!"0123456789") (zpad_digit _ _) (zpad_digit _ _)
        ⟨c, t, hc, hc1⟩ ⟨c', t', hc', hc1'⟩ h3
      have h6 := hone u hu u' hu' h5
      subst h6
      have l1 := zpad_length (dec_length_le (hpos u hu) hf)
      have l2 := zpad_length (dec_length_le (hpos u hu) hf')
      have h7 := trimZeros_inj (l1.trans l2.symm) h4
      have d1 := digitsVal_zpad u.2 f
      rw [h7, digitsVal_zpad] at d1
      exact ⟨(Option.some.inj d1).symm, rfl⟩

/-- A duration as std keeps it: less than a second of nanoseconds. -/
def Proper (d : Duration) : Prop := d.nanos < 1000000000

theorem duration_shape (d : Duration) (h : Proper d) : ∃ i f u, u ∈ units ∧ f < 10 ^ u.2 ∧
    d.debug = debugDecimal i f u.2 u.1 ∧
    ((u = (s!!"s", 9) ∧ d.secs = i ∧ d.nanos = f) ∨ (d.secs = 0 ∧ u = (s!!"ms", 6) ∧ d.nanos = i * 1000000 + f) ∨
      (d.secs = 0 ∧ u = (s!!"µs", 3) ∧ d.nanos = i * 1000 + f) ∨ (d.secs = 0 ∧ u = (s!!"ns", 1) ∧ d.nanos = i)) := by
  unfold Proper at h
  unfold Duration.debug
  split
  · exact ⟨_, _, (s!!"s", 9), by simp [units], h, rfl, .inl ⟨rfl, rfl, rfl⟩⟩
  split
  · exact ⟨_, _, (s!!"ms", 6), by simp [units], by simp only; omega, rfl, .inr (.inl ⟨by omega, rfl, by omega⟩)⟩
  split
  · exact ⟨_, _, (s!!"µs", 3), by simp [units], by simp only; omega, rfl, .inr (.inr (.inl ⟨by omega, rfl, by omega⟩))⟩
  · exact ⟨_, _, (s!!"ns", 1), by simp [units], by simp, rfl, .inr (.inr (.inr ⟨by omega, rfl, rfl⟩))⟩

theorem told_duration : Told Proper Duration.debug := by
  refine told_word (fun d hd c hc => ?_) fun d d' hd hd' h => ?_
  · obtain ⟨i, f, u, hu, -, e, -⟩ := duration_shape d hd
    have hw : ∀ c ∈ s!!"0123456789", c ∉ s!!", )]}" := by decide
    have hw' : ∀ u ∈ units, ∀ c ∈ u.1, c ∉ s!!", )]}" := by decide
    rw [e] at hc
    unfold debugDecimal at hc
    rcases List.mem_append.mp hc with hc | hc
    · rcases List.mem_append.mp hc with hc | hc
      · exact hw c (dec_digit _ c hc)
      · split at hc
        · cases hc
        · rcases List.mem_cons.mp hc with rfl | hc
          · decide
          · exact hw c (zpad_digit _ _ c hc)
    · exact hw' u hu c hc
  · obtain ⟨i, f, u, hu, hf, e, hc⟩ := duration_shape d hd
    obtain ⟨i', f', u', hu', hf', e', hc'⟩ := duration_shape d' hd'
    rw [e, e'] at h
    obtain ⟨rfl, rfl, rfl⟩ := debugDecimal_inj hu hu' hf hf' h
    clear hu' hf' e' h
    obtain ⟨s, n⟩ := d
    obtain ⟨s', n'⟩ := d'
    simp only [Duration.mk.injEq]
    simp only at hc hc'
    rcases hc with ⟨rfl, h1, h2⟩ | ⟨h1, rfl, h2⟩ | ⟨h1, rfl, h2⟩ | ⟨h1, rfl, h2⟩ <;>
    rcases hc' with ⟨h0, h3, h4⟩ | ⟨h3, h0, h4⟩ | ⟨h3, h0, h4⟩ | ⟨h3, h0, h4⟩ <;>
    first
    | exact absurd h0 (by decide)
    | omega

example : Duration.debug ⟨1, 500000000⟩ = s!!"1.5s" ∧ Duration.debug ⟨0, 2000⟩ = s!!"2µs" ∧
    Duration.debug ⟨0, 0⟩ = s!!"0ns" ∧ Duration.debug ⟨0, 1234567⟩ = s!!"1.234567ms" := by decide +kernel


/-! ### Structures -/

theorem told_etag (pr : Char → Bool) {P : ETag → Prop} : Told P (ETag.debug pr) := by
  intro a a' x x' _ _ _ _ h
  cases a <;> cases a' <;> simp only [ETag.debug, debugTuple, List.append_assoc] at h
  · obtain ⟨rfl, h1⟩ := debugStr_delimited pr _ _ _ _ (List.append_cancel_left (List.append_cancel_left h))
    exact ⟨rfl, List.append_cancel_left h1⟩
  · simp at h
  · simp at h
  · obtain ⟨rfl, h1⟩ := debugStr_delimited pr _ _ _ _ (List.append_cancel_left (List.append_cancel_left h))
    exact ⟨rfl, List.append_cancel_left h1⟩

theorem told_clear {P : ClearDirective → Prop} : Told P ClearDirective.debug :=
  told_word (fun a _ => by cases a <;> decide) fun a a' _ _ h => by
    cases a <;> cases a' <;> first | rfl | (revert h; decide)

theorem method_all (m : Method) : m ∈ Method.all := by cases m <;> decide

theorem told_method {P : Method → Prop} : Told P Method.debug := by
  have h1 : ∀ m ∈ Method.all, ∀ c ∈ m.debug, c ∉ s!!", )]}" := by decide +kernel
  have h2 : ∀ m ∈ Method.all, ∀ m' ∈ Method.all, m.debug = m'.debug → m = m' := by decide +kernel
  exact told_word (fun a _ => h1 a (method_all a)) fun a a' _ _ h => h2 a (method_all a) a' (method_all a') h

theorem told_scheme {P : Scheme → Prop} : Told P Scheme.debug :=
  told_word (fun a _ => by cases a <;> decide) fun a a' _ _ h => by
    cases a <;> cases a' <;> first | rfl | (revert h; decide)

/-- The durations of a directive are proper. -/
def ProperDirective : CacheDirective → Prop
  | .maxAge d | .minFresh d | .sMaxAge d | .staleIfError d | .staleWhileRevalidate d => Proper d
  | .maxStale o => ∀ d ∈ o, Proper d
  | _ => True

/-- A name and, in parentheses, a value. -/
theorem told_tuple {α : Type} {P : α → Prop} {f : α → Str} (h : Told P f) {n : Str} {a a' : α} {x x' : Str} (ha : P a)
    (ha' : P a') (e : debugTuple n (f a) ++ x = debugTuple n (f a') ++ x') : a = a' ∧ x = x' := by
  simp only [debugTuple, List.append_assoc] at e
  obtain ⟨h1, h2⟩ := h a a' _ _ ha ha' (stop_cons (by decide) _) (stop_cons (by decide) _)
    (List.append_cancel_left (List.append_cancel_left e))
  exact ⟨h1, (List.cons.inj h2).2⟩

/-- The name of a directive and the durations. -/
def shape : CacheDirective → Str × Option (Option Duration)
  | .immutable => (s!!"Immutable", none)
  | .maxAge d => (s!!"MaxAge", some (some d))
  | .maxStale d => (s!!"MaxStale", some d)
  | .minFresh d => (s!!"MinFresh", some (some d))
  | .mustRevalidate => (s!!"MustRevalidate", none)
  | .noCache => (s!!"NoCache", none)
  | .noStore => (s!!"NoStore", none)
  | .noTransform => (s!!"NoTransform", none)
  | .onlyIfCached => (s!!"OnlyIfCached", none)
  | .priv => (s!!"Private", none)
  | .proxyRevalidate => (s!!"ProxyRevalidate", none)
  | .publ => (s!!"Public", none)
  | .sMaxAge d => (s!!"SMaxAge", some (some d))
  | .staleIfError d => (s!!"StaleIfError", some (some d))
  | .staleWhileRevalidate d => (s!!"StaleWhileRevalidate", some (some d))

set_option maxHeartbeats 2000000 in
theorem told_directive : Told ProperDirective CacheDirective.debug := by
  intro a a' x x' ha ha' hx hx' h
  have hs : ∀ x, Stop x → ∀ c t, x = c :: t → c ∉ s!!"(" ∧ c.isAlpha = false := by
    rintro x ⟨c, t, rfl, hc⟩ c' t' e
    obtain ⟨rfl, -⟩ := List.cons.inj e
    revert hc
    simp only [List.mem_cons, List.not_mem_nil, or_false]
    rintro (rfl | rfl | rfl | rfl | rfl) <;> decide
  -- the letters at the beginning
  have key : ∀ d : CacheDirective, ∀ x, Stop x → ∃ y, d.debug ++ x = (shape d).1 ++ y ∧
      (∀ c ∈ (shape d).1, c.isAlpha = true) ∧ ∃ c t, y = c :: t ∧ ¬ c.isAlpha = true := by
    intro d x hx
    obtain ⟨c, t, rfl, hc⟩ := id hx
    have hc' := (hs _ hx c t rfl).2
    cases d <;> simp only [CacheDirective.debug, shape, debugTuple, List.append_assoc] <;>
      first
      | exact ⟨c :: t, rfl, by decide, c, t, rfl, by rw [hc']; decide⟩
      | exact ⟨_, rfl, by decide, '(', _, rfl, by decide⟩
  obtain ⟨y, e1, e2, e3⟩ := key a x hx
  obtain ⟨y', e1', e2', e3'⟩ := key a' x' hx'
  have h0 := h
  rw [e1, e1'] at h0
  obtain ⟨hn, -⟩ := span_eq (p := fun c => c.isAlpha = true) e2 e2' e3 e3' h0
  clear h0 e1 e2 e3 e1' e2' e3' y y' key hs
  cases a <;> cases a' <;>
  first
  | (simp only [shape] at hn; exact absurd hn (by decide))
  | exact ⟨rfl, List.append_cancel_left h⟩
  | (obtain ⟨rfl, h1⟩ := told_tuple told_duration ha ha' h; exact ⟨rfl, h1⟩)
  | (obtain ⟨rfl, h1⟩ := told_tuple (told_opt told_duration) ha ha' h; exact ⟨rfl, h1⟩)

theorem told_pre {α : Type} {P : α → Prop} {f : α → Str} (pre : Str) (h : Told P f) : Told P fun a => pre ++ f a := by
  intro a a' x x' ha ha' hx hx' e
  simp only [List.append_assoc] at e
  exact h a a' x x' ha ha' hx hx' (List.append_cancel_left e)

theorem told_suf {α : Type} {P : α → Prop} {f : α → Str} {c : Char} (hc : c ∈ s!!", )]}") (t : Str) (h : Told P f) :
    Told P fun a => f a ++ c :: t := by
  intro a a' x x' ha ha' _ _ e
  simp only [List.append_assoc] at e
  obtain ⟨h1, h2⟩ := h a a' _ _ ha ha' (stop_cons hc _) (stop_cons hc _) e
  exact ⟨h1, List.append_cancel_left (as := c :: t) h2⟩

theorem told_seq {α β : Type} {P : α → Prop} {Q : β → Prop} {f : α → Str} {g : β → Str} {c : Char}
    (hc : c ∈ s!!", )]}") (t : Str) (hf : Told P f) (hg : Told Q g) :
    Told (fun p : α × β => P p.1 ∧ Q p.2) fun p => f p.1 ++ c :: (t ++ g p.2) := by
  rintro ⟨a, b⟩ ⟨a', b'⟩ x x' ⟨ha, hb⟩ ⟨ha', hb'⟩ hx hx' e
  simp only [List.append_assoc, List.cons_append] at e
  obtain ⟨rfl, h1⟩ := hf a a' _ _ ha ha' (stop_cons hc _) (stop_cons hc _) e
  obtain ⟨rfl, h2⟩ := hg b b' x x' hb hb' hx hx' (List.append_cancel_left (List.cons.inj h1).2)
  exact ⟨rfl, h2⟩

theorem told_map {α β : Type} {P : α → Prop} {f : α → Str} {Q : β → Prop} {g : β → Str} (h : Told P f) (k : β → α)
    (hk : ∀ b b', k b = k b' → b = b') (hP : ∀ b, Q b → P (k b)) (hf : ∀ b, g b = f (k b)) : Told Q g := by
  intro b b' x x' hb hb' hx hx' e
  rw [hf, hf] at e
  obtain ⟨h1, h2⟩ := h _ _ x x' (hP b hb) (hP b' hb') hx hx' e
  exact ⟨hk b b' h1, h2⟩

/-- A structure with one field. -/
theorem told_one {α : Type} {P : α → Prop} {f : α → Str} (n m : Str) (h : Told P f) :
    Told P fun a => debugStruct n [(m, f a)] :=
  told_map (told_pre (n ++ s!!" { " ++ m ++ s!!": ") (told_suf (c := ' ') (by decide) s!!"}" h)) id (fun _ _ e => e)
    (fun _ h => h) fun a => by simp [debugStruct, join]

/-- A structure with two fields. -/
theorem told_two {α β : Type} {P : α → Prop} {Q : β → Prop} {f : α → Str} {g : β → Str} (n m m' : Str) (h : Told P f)
    (h' : Told Q g) : Told (fun p : α × β => P p.1 ∧ Q p.2) fun p => debugStruct n [(m, f p.1), (m', g p.2)] :=
  told_map (told_pre (n ++ s!!" { " ++ m ++ s!!": ") (told_suf (c := ' ') (by decide) s!!"}"
    (told_seq (c := ',') (by decide) (s!!" " ++ m' ++ s!!": ") h h'))) id (fun _ _ e => e)
    (fun _ h => h) fun a => by simp [debugStruct, join]

/-- A structure with three fields. -/
theorem told_three {α β γ : Type} {P : α → Prop} {Q : β → Prop} {R : γ → Prop} {f : α → Str} {g : β → Str} {k : γ → Str}
    (n m m' m'' : Str) (h : Told P f) (h' : Told Q g) (h'' : Told R k) :
    Told (fun p : α × β × γ => P p.1 ∧ Q p.2.1 ∧ R p.2.2) fun p =>
      debugStruct n [(m, f p.1), (m', g p.2.1), (m'', k p.2.2)] :=
  told_map (told_pre (n ++ s!!" { " ++ m ++ s!!": ") (told_suf (c := ' ') (by decide) s!!"}"
    (told_seq (c := ',') (by decide) (s!!" " ++ m' ++ s!!": ") h
      (told_seq (c := ',') (by decide) (s!!" " ++ m'' ++ s!!": ") h' h'')))) id (fun _ _ e => e)
    (fun _ h => h) fun a => by simp [debugStruct, join]

theorem told_metric (pr : Char → Bool) : Told (fun m : Metric => ∀ d ∈ m.dur, Proper d) (Metric.debug pr) :=
  told_map (told_three s!!"Metric" s!!"name" s!!"dur" s!!"desc" (told_str pr (P := Any)) (told_opt told_duration)
    (told_opt (told_str pr (P := Any)))) (fun m => (m.name, m.dur, m.desc))
    (fun m m' e => by cases m; cases m'; simpa using e) (fun m h => ⟨trivial, h, fun _ _ => trivial⟩) fun _ => rfl

theorem told_authorization (pr : Char → Bool) : Told Any (Authorization.debug pr) :=
  told_map (told_two s!!"Authorization" s!!"scheme" s!!"credentials" (told_scheme (P := Any)) (told_str pr (P := Any)))
    (fun a => (a.scheme, a.credentials)) (fun m m' e => by cases m; cases m'; simpa using e)
    (fun _ _ => ⟨trivial, trivial⟩) fun _ => rfl

theorem told_basic (pr : Char → Bool) : Told Any (BasicAuth.debug pr) :=
  told_map (told_two s!!"BasicAuth" s!!"username" s!!"password" (told_str pr (P := Any)) (told_str pr (P := Any)))
    (fun a => (a.username, a.password)) (fun m m' e => by cases m; cases m'; simpa using e)
    (fun _ _ => ⟨trivial, trivial⟩) fun _ => rfl

theorem told_www (pr : Char → Bool) : Told Any (WwwAuthenticate.debug pr) :=
  told_map (told_two s!!"WwwAuthenticate" s!!"scheme" s!!"realm" (told_scheme (P := Any)) (told_str pr (P := Any)))
    (fun a => (a.scheme, a.realm)) (fun m m' e => by cases m; cases m'; simpa using e)
    (fun _ _ => ⟨trivial, trivial⟩) fun _ => rfl

theorem told_hsts : Told (fun h : Hsts => Proper h.maxAge) Hsts.debug :=
  told_map (told_three s!!"StrictTransportSecurity" s!!"max_age" s!!"include_subdomains" s!!"preload" told_duration
    (told_bool (P := Any)) (told_bool (P := Any))) (fun h => (h.maxAge, h.includeSubdomains, h.preload))
    (fun m m' e => by cases m; cases m'; simpa using e) (fun _ h => ⟨h, trivial, trivial⟩) fun _ => rfl

theorem told_context : Told Any TraceContext.debug :=
  told_map (told_pre s!!"TraceContext { id: " (told_suf (c := ' ') (by decide) s!!"}"
    (told_seq (c := ',') (by decide) s!!" version: " (told_dec (P := Any))
      (told_seq (c := ',') (by decide) s!!" trace_id: " (told_dec (P := Any))
        (told_seq (c := ',') (by decide) s!!" parent_id: " (told_dec (P := Any))
          (told_seq (c := ',') (by decide) s!!" flags: " (told_opt (told_dec (P := Any))) (told_dec (P := Any))))))))
    (fun c => (c.id, c.version, c.traceId, c.parentId, c.flags))
    (fun m m' e => by cases m; cases m'; simpa using e)
    (fun _ _ => ⟨trivial, trivial, trivial, fun _ _ => trivial, trivial⟩)
    fun _ => by simp [TraceContext.debug, debugStruct, join]

theorem told_strs (pr : Char → Bool) : Told Any fun l : List Str => debugList (l.map (debugStr pr)) :=
  told_map (told_list (told_str pr (P := Any)) fun a => ⟨'"', _, rfl, by decide⟩) id (fun _ _ e => e)
    (fun _ _ _ _ => trivial) fun _ => rfl

theorem told_forwarded (pr : Char → Bool) : Told Any (Forwarded.debug pr) :=
  told_map (told_pre s!!"Forwarded { by: " (told_suf (c := ' ') (by decide) s!!"}"
    (told_seq (c := ',') (by decide) s!!" forwarded_for: " (told_opt (told_str pr (P := Any)))
      (told_seq (c := ',') (by decide) s!!" host: " (told_strs pr)
        (told_seq (c := ',') (by decide) s!!" proto: " (told_opt (told_str pr (P := Any)))
          (told_opt (told_str pr (P := Any))))))))
    (fun f => (f.by', f.forwardedFor, f.host, f.proto))
    (fun m m' e => by cases m; cases m'; simpa using e)
    (fun _ _ => ⟨fun _ _ => trivial, trivial, fun _ _ => trivial, fun _ _ => trivial⟩)
    fun _ => by simp [Forwarded.debug, debugStruct, join]

theorem told_param (pr : Char → Bool) : Told Any (Mime.debugParam pr) :=
  told_map (told_pre s!!"(ParamName(" (told_suf (c := ')') (by decide) s!!")"
    (told_seq (c := ')') (by decide) s!!", ParamValue(" (told_str pr (P := Any)) (told_str pr (P := Any))))) id
    (fun _ _ e => e) (fun _ _ => ⟨trivial, trivial⟩) fun _ => by simp [Mime.debugParam, debugTuple]

theorem told_mime (pr : Char → Bool) : Told Any (Mime.debug pr) :=
  told_map (told_pre s!!"Mime { essence: " (told_suf (c := ' ') (by decide) s!!"}"
    (told_seq (c := ',') (by decide) s!!" basetype: " (told_str pr (P := Any))
      (told_seq (c := ',') (by decide) s!!" subtype: " (told_str pr (P := Any))
        (told_seq (c := ',') (by decide) s!!" is_utf8: " (told_str pr (P := Any))
          (told_seq (c := ',') (by decide) s!!" params: " (told_bool (P := Any))
            (told_list (told_param pr) fun a => ⟨'(', _, rfl, by decide⟩)))))))
    (fun m => (m.essence, m.basetype, m.subtype, m.isUtf8, m.params))
    (fun m m' e => by cases m; cases m'; simpa using e)
    (fun _ _ => ⟨trivial, trivial, trivial, trivial, fun _ _ => trivial⟩)
    fun _ => by simp [Mime.debug, debugStruct, join]

theorem told_encoding {P : Encoding → Prop} : Told P Encoding.debug :=
  told_word (fun a _ => by cases a <;> decide) fun a a' _ _ h => by
    cases a <;> cases a' <;> first | rfl | (revert h; decide)

theorem told_tencoding {P : TEncoding → Prop} : Told P TEncoding.debug :=
  told_word (fun a _ => by cases a <;> decide) fun a a' _ _ h => by
    cases a <;> cases a' <;> first | rfl | (revert h; decide)

/-- C105, headers with fields: two print the same exactly if they are equal. -/
theorem C105_fields (pr : Char → Bool) :
    (∀ a b : Authorization, a.debug pr = b.debug pr ↔ a = b) ∧
    (∀ a b : BasicAuth, a.debug pr = b.debug pr ↔ a = b) ∧
    (∀ a b : WwwAuthenticate, a.debug pr = b.debug pr ↔ a = b) ∧
    (∀ a b : TraceContext, a.debug = b.debug ↔ a = b) ∧
    (∀ a b : Forwarded, a.debug pr = b.debug pr ↔ a = b) ∧
    (∀ a b : Mime, a.debug pr = b.debug pr ↔ a = b) ∧
    (∀ a b : Mime, ContentType.debug pr a = ContentType.debug pr b ↔ a = b) ∧
    (∀ a b : Nat, ContentLength.debug a = ContentLength.debug b ↔ a = b) ∧
    (∀ a b : ETag, a.debug pr = b.debug pr ↔ a = b) ∧
    (∀ a b : Encoding, a.debug = b.debug ↔ a = b) ∧
    (∀ a b : TEncoding, a.debug = b.debug ↔ a = b) ∧
    (∀ a b : Method, a.debug = b.debug ↔ a = b) ∧
    (∀ a b : Duration, Proper a → Proper b → (Age.debug a = Age.debug b ↔ a = b)) ∧
    (∀ a b : Hsts, Proper a.maxAge → Proper b.maxAge → (a.debug = b.debug ↔ a = b)) ∧
    ∀ a b : List Metric, (∀ m ∈ a ++ b, ∀ d ∈ m.dur, Proper d) → (ServerTiming.debug pr a = ServerTiming.debug pr b ↔ a = b) :=
  ⟨fun _ _ => (told_authorization pr).inj trivial trivial, fun _ _ => (told_basic pr).inj trivial trivial,
    fun _ _ => (told_www pr).inj trivial trivial, fun _ _ => told_context.inj trivial trivial,
    fun _ _ => (told_forwarded pr).inj trivial trivial, fun _ _ => (told_mime pr).inj trivial trivial,
    fun _ _ => (told_one s!!"ContentType" s!!"media_type" (told_mime pr)).inj trivial trivial,
    fun _ _ => (told_one s!!"ContentLength" s!!"length" (told_dec (P := Any))).inj trivial trivial,
    fun _ _ => (told_etag pr (P := Any)).inj trivial trivial, fun _ _ => (told_encoding (P := Any)).inj trivial trivial,
    fun _ _ => (told_tencoding (P := Any)).inj trivial trivial, fun _ _ => (told_method (P := Any)).inj trivial trivial,
    fun _ _ ha hb => (told_one s!!"Age" s!!"dur" told_duration).inj ha hb, fun _ _ ha hb => told_hsts.inj ha hb,
    fun _ _ h => (told_one s!!"ServerTiming" s!!"timings"
      (told_list (told_metric pr) fun m => ⟨'M', _, rfl, by decide⟩)).inj
      (fun m hm => h m (List.mem_append_left _ hm)) fun m hm => h m (List.mem_append_right _ hm)⟩

example (pr : Char → Bool) : BasicAuth.debug pr ⟨s!!"a\", password: \"b", s!!"c"⟩ ≠ BasicAuth.debug pr ⟨s!!"a", s!!"b"⟩ := by
  rw [Ne, (C105_fields pr).2.1]; decide
example : Age.debug ⟨1, 500000000⟩ = s!!"Age { dur: 1.5s }" := by decide +kernel

/-- The letters and digits of a word, without case. -/
def wordKey (s : Str) : Str := (lower s).filter fun c => !(c == '-' || c == '"')

/-- C105: methods, schemes, directives and codings print under the word they have in a header, but for case, hyphens and
quotes; brotli, which a header shortens, prints in full. -/
theorem C105_words :
    (∀ m : Method, wordKey m.debug = wordKey m.asStr) ∧ (∀ a : Scheme, wordKey a.debug = wordKey a.toStr) ∧
    (∀ d : ClearDirective, wordKey d.debug = wordKey d.asStr) ∧
    (∀ d : CacheDirective, wordKey (d.debug.takeWhile (· != '(')) = wordKey (d.display.takeWhile (· != '='))) ∧
    (∀ e : Encoding, if e = .brotli then e.display = s!!"br" ∧ e.debug = s!!"Brotli" else wordKey e.debug = wordKey e.display) ∧
    ∀ e : TEncoding, if e = .brotli then e.display = s!!"br" ∧ e.debug = s!!"Brotli" else wordKey e.debug = wordKey e.display := by
  refine ⟨fun m => ?_, fun a => ?_, fun d => ?_, fun d => ?_, fun e => ?_, fun e => ?_⟩
  · cases m <;> decide +kernel
  · cases a <;> decide +kernel
  · cases d <;> decide +kernel
  · rcases d with _ | _ | (_ | _) | _ | _ | _ | _ | _ | _ | _ | _ | _ | _ | _ | _ <;> rfl
  · cases e <;> decide +kernel
  · cases e <;> decide +kernel

example : Method.debug .versionControl = s!!"VersionControl" ∧ wordKey s!!"VersionControl" = wordKey s!!"VERSION-CONTROL" := by
  decide +kernel
example : ETag.debug (fun _ => true) (.strong s!!"a\"") = s!!"Strong(\"a\\\"\")" ∧ ETag.debug (fun _ => true) (.weak s!!"") = s!!"Weak(\"\")" := by
  decide +kernel
example : Hsts.debug ⟨⟨31536000, 0⟩, true, false⟩ =
    s!!"StrictTransportSecurity { max_age: 31536000s, include_subdomains: true, preload: false }" := by decide +kernel
example : TraceContext.debug ⟨1, 0, 2, some 3, 1⟩ =
    s!!"TraceContext { id: 1, version: 0, trace_id: 2, parent_id: Some(3), flags: 1 }" := by decide +kernel
example : Forwarded.debug (fun _ => true) { host := some s!!"h", forwardedFor := [s!!"a", s!!"b"] } =
    s!!"Forwarded { by: None, forwarded_for: [\"a\", \"b\"], host: Some(\"h\"), proto: None }" := by decide +kernel
example : ContentType.debug (fun _ => true) ⟨s!!"a/b", s!!"a", s!!"b", false, [(s!!"k", s!!"v")]⟩ =
    s!!"ContentType { media_type: Mime { essence: \"a/b\", basetype: \"a\", subtype: \"b\", is_utf8: false, params: [(ParamName(\"k\"), ParamValue(\"v\"))] } }" := by
  decide +kernel
example : ServerTiming.debug (fun _ => true) [⟨s!!"db", some ⟨0, 5000000⟩, none⟩] =
    s!!"ServerTiming { timings: [Metric { name: \"db\", dur: Some(5ms), desc: None }] }" := by decide +kernel
example : Authorization.debug (fun _ => true) ⟨.basic, s!!"x"⟩ = s!!"Authorization { scheme: Basic, credentials: \"x\" }" ∧
    BasicAuth.debug (fun _ => true) ⟨s!!"u", s!!"p"⟩ = s!!"BasicAuth { username: \"u\", password: \"p\" }" ∧
    WwwAuthenticate.debug (fun _ => true) ⟨.basic, s!!"r"⟩ = s!!"WwwAuthenticate { scheme: Basic, realm: \"r\" }" ∧
    ContentLength.debug 7 = s!!"ContentLength { length: 7 }" := by decide +kernel

/-- C105, lists: two print the same exactly if their entries are equal, in the order visited. Missing: whether the list
has the wildcard. -/
theorem C105_lists_partial (pr : Char → Bool) :
    (∀ a b : StarList ETag, a.debug (ETag.debug pr) = b.debug (ETag.debug pr) ↔ a.entries = b.entries) ∧
    (∀ a b : StarList HeaderName,
      a.debug (HeaderName.debug pr) = b.debug (HeaderName.debug pr) ↔ a.entries = b.entries) ∧
    (∀ a b : StarList ClearDirective, a.debug ClearDirective.debug = b.debug ClearDirective.debug ↔ a.entries = b.entries) ∧
    (∀ a b : List Method, Allow.debug a = Allow.debug b ↔ a = b) ∧
    ∀ a b : List CacheDirective, (∀ d ∈ a ++ b, ProperDirective d) → (CacheControl.debug a = CacheControl.debug b ↔ a = b) := by
  refine ⟨fun a b => ?_, fun a b => ?_, fun a b => ?_, fun a b => ?_, fun a b h => ?_⟩
  · exact (told_list (told_etag pr (P := Any)) fun a => by cases a <;> exact ⟨_, _, rfl, by decide⟩).inj
      (fun _ _ => trivial) fun _ _ => trivial
  · exact (told_list (told_str pr (P := Any)) fun a => ⟨'"', _, rfl, by decide⟩).inj
      (fun _ _ => trivial) fun _ _ => trivial
  · exact (told_list (told_clear (P := Any)) fun a => by cases a <;> exact ⟨_, _, rfl, by decide⟩).inj
      (fun _ _ => trivial) fun _ _ => trivial
  · exact (told_list (told_method (P := Any)) fun a => by cases a <;> exact ⟨_, _, rfl, by decide⟩).inj
      (fun _ _ => trivial) fun _ _ => trivial
  · exact (told_list told_directive fun a => by cases a <;> exact ⟨_, _, rfl, by decide⟩).inj
      (fun d hd => h d (List.mem_append_left _ hd)) fun d hd => h d (List.mem_append_right _ hd)

example : CacheControl.debug [.noStore, .maxStale (some ⟨0, 2500⟩)] = s!!"[NoStore, MaxStale(Some(2.5µs))]" := by decide +kernel
example : ∀ d ∈ [CacheDirective.noStore, .maxStale (some ⟨0, 2500⟩)], ProperDirective d := by
  simp [ProperDirective, Proper]

/-- C105 does not hold for the wildcard: a list with it prints like the same list without it, so that `*` alone prints
like no entry at all. -/
theorem C105_violated_wildcard {α : Type} :
    (∀ (entry : α → Str) (l : List α), (StarList.mk l true).debug entry = (StarList.mk l false).debug entry) ∧
    (∀ (entry : Proposal α → Str) (l : List (Proposal α)),
      (AcceptList.mk true l).debug entry = (AcceptList.mk false l).debug entry) ∧
    (∀ pr, (StarList.mk ([] : List ETag) true).debug (ETag.debug pr) = s!!"[]") ∧
    ∃ (h : Headers) (l l' : StarList ETag), readStarList s!!"if-match" s!!"*" ETag.fromStr h = .ok (some l) ∧ l.wildcard = true ∧ l'.wildcard = false ∧
      ∀ pr, l.debug (ETag.debug pr) = l'.debug (ETag.debug pr) :=
  ⟨fun _ _ => rfl, fun _ _ => rfl, fun _ => rfl, [(s!!"if-match", [s!!"*"])], ⟨[], true⟩, ⟨[], false⟩, by decide +kernel, rfl, rfl,
    fun _ => rfl⟩

/-! ### One line -/

theorem dec_line (n : Nat) : OneLine (dec n) := by
  have h : ∀ c ∈ s!!"0123456789", ¬ (c.toNat < 32 ∨ c.toNat = 127) := by decide
  exact fun c hc => h c (dec_digit n c hc)

theorem tuple_line {n v : Str} (hn : OneLine n) (hv : OneLine v) : OneLine (debugTuple n v) :=
  oneLine_append (oneLine_append (oneLine_append hn (by decide)) hv) (by decide)

theorem opt_line {α : Type} {f : α → Str} (h : ∀ a, OneLine (f a)) (o : Option α) : OneLine (debugOpt f o) := by
  cases o with
  | none => exact (by decide : OneLine s!!"None")
  | some a => exact tuple_line (by decide) (h a)

theorem bool_line (b : Bool) : OneLine (debugBool b) := by cases b <;> decide

theorem list_line {α : Type} {f : α → Str} (h : ∀ a, OneLine (f a)) (l : List α) : OneLine (debugList (l.map f)) := by
  refine oneLine_append (oneLine_append (by decide) (oneLine_join (by decide) fun x hx => ?_)) (by decide)
  obtain ⟨a, -, rfl⟩ := List.mem_map.mp hx
  exact h a

theorem struct_line {n : Str} {fs : List (Str × Str)} (hn : OneLine n) (h : ∀ e ∈ fs, OneLine e.1 ∧ OneLine e.2) :
    OneLine (debugStruct n fs) := by
  unfold debugStruct
  split
  · exact hn
  · refine oneLine_append (oneLine_append (oneLine_append hn (by decide)) (oneLine_join (by decide) fun x hx => ?_)) (by decide)
    obtain ⟨e, he, rfl⟩ := List.mem_map.mp hx
    exact oneLine_append (oneLine_append (h e he).1 (by decide)) (h e he).2

theorem decimal_line (i f k : Nat) {u : Str} (hu : OneLine u) : OneLine (debugDecimal i f k u) := by
  refine oneLine_append (oneLine_append (dec_line i) ?_) hu
  split
  · simp [OneLine]
  · have h : ∀ c ∈ s!!"0123456789", ¬ (c.toNat < 32 ∨ c.toNat = 127) := by decide
    intro c hc
    rcases List.mem_cons.mp hc with rfl | hc
    · decide
    · exact h c (zpad_digit _ _ c hc)

theorem duration_line (d : Duration) : OneLine d.debug := by
  unfold Duration.debug
  split
  · exact decimal_line _ _ _ (by decide)
  split
  · exact decimal_line _ _ _ (by decide)
  split
  · exact decimal_line _ _ _ (by decide)
  · exact decimal_line _ _ _ (by decide)

theorem etag_line (pr : Char → Bool) (e : ETag) : OneLine (e.debug pr) := by
  cases e <;> exact tuple_line (by decide) (debugStr_line pr _)

theorem method_line (m : Method) : OneLine m.debug := by
  have h : ∀ m ∈ Method.all, OneLine m.debug := by decide +kernel
  exact h m (method_all m)

theorem scheme_line (m : Scheme) : OneLine m.debug := by cases m <;> decide

theorem directive_line (d : CacheDirective) : OneLine d.debug := by
  cases d <;> first
    | exact tuple_line (by decide) (duration_line _)
    | exact tuple_line (by decide) (opt_line duration_line _)
    | (simp only [CacheDirective.debug]; decide)

theorem metric_line (pr : Char → Bool) (m : Metric) : OneLine (m.debug pr) :=
  struct_line (by decide) (by
    simp only [List.forall_mem_cons, List.not_mem_nil, false_implies, implies_true, and_true]
    exact ⟨⟨by decide, debugStr_line pr _⟩, ⟨by decide, opt_line duration_line _⟩, by decide, opt_line (debugStr_line pr) _⟩)

theorem mime_line (pr : Char → Bool) (m : Mime) : OneLine (m.debug pr) :=
  struct_line (by decide) (by
    simp only [List.forall_mem_cons, List.not_mem_nil, false_implies, implies_true, and_true]
    refine ⟨⟨by decide, debugStr_line pr _⟩, ⟨by decide, debugStr_line pr _⟩, ⟨by decide, debugStr_line pr _⟩,
      ⟨by decide, bool_line _⟩, by decide, list_line (fun p => ?_) _⟩
    exact oneLine_append (oneLine_append (oneLine_append (oneLine_append (by decide)
      (tuple_line (by decide) (debugStr_line pr _))) (by decide)) (tuple_line (by decide) (debugStr_line pr _))) (by decide))

/-- C105: whatever the headers hold, what is printed is one line without control characters. -/
theorem C105_one_line (pr : Char → Bool) :
    (∀ a : Authorization, OneLine (a.debug pr)) ∧ (∀ a : BasicAuth, OneLine (a.debug pr)) ∧
    (∀ a : WwwAuthenticate, OneLine (a.debug pr)) ∧ (∀ a : TraceContext, OneLine a.debug) ∧
    (∀ a : Forwarded, OneLine (a.debug pr)) ∧ (∀ a : Mime, OneLine (a.debug pr) ∧ OneLine (ContentType.debug pr a)) ∧
    (∀ n : Nat, OneLine (ContentLength.debug n)) ∧ (∀ d : Duration, OneLine (Age.debug d)) ∧ (∀ a : Hsts, OneLine a.debug) ∧
    (∀ a : List Metric, OneLine (ServerTiming.debug pr a)) ∧ (∀ a : StarList ETag, OneLine (a.debug (ETag.debug pr))) ∧
    (∀ a : StarList HeaderName, OneLine (a.debug (HeaderName.debug pr))) ∧
    (∀ a : StarList ClearDirective, OneLine (a.debug ClearDirective.debug)) ∧ (∀ a : List Method, OneLine (Allow.debug a)) ∧
    ∀ a : List CacheDirective, OneLine (CacheControl.debug a) := by
  refine ⟨fun a => struct_line (by decide) ?_, fun a => struct_line (by decide) ?_, fun a => struct_line (by decide) ?_,
    fun a => struct_line (by decide) ?_, fun a => struct_line (by decide) ?_,
    fun a => ⟨mime_line pr a, struct_line (by decide) ?_⟩, fun a => struct_line (by decide) ?_,
    fun a => struct_line (by decide) ?_, fun a => struct_line (by decide) ?_, fun a => struct_line (by decide) ?_,
    fun a => list_line (etag_line pr) _, fun a => list_line (debugStr_line pr) _,
    fun a => list_line (fun d => by cases d <;> decide) _, fun a => list_line method_line _, fun a => list_line directive_line _⟩
  all_goals simp only [List.forall_mem_cons, List.not_mem_nil, false_implies, implies_true, and_true]
  · exact ⟨⟨by decide, scheme_line _⟩, by decide, debugStr_line pr _⟩
  · exact ⟨⟨by decide, debugStr_line pr _⟩, by decide, debugStr_line pr _⟩
  · exact ⟨⟨by decide, scheme_line _⟩, by decide, debugStr_line pr _⟩
  · exact ⟨⟨by decide, dec_line _⟩, ⟨by decide, dec_line _⟩, ⟨by decide, dec_line _⟩, ⟨by decide, opt_line dec_line _⟩,
      by decide, dec_line _⟩
  · exact ⟨⟨by decide, opt_line (debugStr_line pr) _⟩, ⟨by decide, list_line (debugStr_line pr) _⟩,
      ⟨by decide, opt_line (debugStr_line pr) _⟩, by decide, opt_line (debugStr_line pr) _⟩
  · exact ⟨by decide, mime_line pr _⟩
  · exact ⟨by decide, dec_line _⟩
  · exact ⟨by decide, duration_line _⟩
  · exact ⟨⟨by decide, duration_line _⟩, ⟨by decide, bool_line _⟩, by decide, bool_line _⟩
  · exact ⟨by decide, list_line (metric_line pr) _⟩

example (pr : Char → Bool) : OneLine (Forwarded.debug pr { host := some s!!"a\r\nadmitted: yes" }) :=
  (C105_one_line pr).2.2.2.2.1 _

end HT
