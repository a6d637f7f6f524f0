import Verif.Model.Debug
import Verif.Spec.Debug
import Verif.Lemmas.Num

/-!
C90: what `{:?}` prints of headers and bodies.
-/

namespace HT
open Spec

/-- Texts that tell where they end: whatever follows, the value and the rest can be told from the text. -/
def SelfDelimited {α : Type} (f : α → Str) : Prop := ∀ a a' x x', f a ++ x = f a' ++ x' → a = a' ∧ x = x'

/-- The character a one-letter escape stands for. -/
def unescape (k : Char) : Char :=
  if k = '0' then Char.ofNat 0 else if k = 't' then '\t' else if k = 'r' then '\r' else if k = 'n' then '\n' else k

theorem escapeDebug_cases (pr : Char → Bool) (c : Char) :
    (escapeDebug pr c = [c] ∧ c ≠ '\\' ∧ c ≠ '"' ∧ ¬ (c.toNat < 32 ∨ c.toNat = 127)) ∨
      (∃ k, escapeDebug pr c = ['\\', k] ∧ k ≠ 'u' ∧ unescape k = c ∧ ¬ (k.toNat < 32 ∨ k.toNat = 127)) ∨
      escapeDebug pr c = s!!"\\u{" ++ natStr 16 c.toNat ++ s!!"}" := by
  unfold escapeDebug
  split
  · rename_i h; exact .inr (.inl ⟨'0', rfl, by decide, by rw [char_eq_of_toNat (a := c) (b := Char.ofNat 0) h]; decide, by decide⟩)
  split
  · rename_i h; exact .inr (.inl ⟨'t', rfl, by decide, by rw [h]; decide, by decide⟩)
  split
  · rename_i h; exact .inr (.inl ⟨'r', rfl, by decide, by rw [h]; decide, by decide⟩)
  split
  · rename_i h; exact .inr (.inl ⟨'n', rfl, by decide, by rw [h]; decide, by decide⟩)
  split
  · rename_i h; exact .inr (.inl ⟨'"', rfl, by decide, by rw [h]; decide, by decide⟩)
  split
  · rename_i h; exact .inr (.inl ⟨'\\', rfl, by decide, by rw [h]; decide, by decide⟩)
  split
  · rename_i h1 h2 h; exact .inl ⟨rfl, h2, h1, by omega⟩
  · exact .inr (.inr rfl)

theorem natStr_inj {b n m : Nat} (hb : 2 ≤ b) (hb' : b ≤ 16) (h : natStr b n = natStr b m) : n = m := by
  have h1 := digitsVal_natStr hb hb' n
  rw [h, digitsVal_natStr hb hb' m] at h1
  exact (Option.some.inj h1).symm

theorem not_mem_hex {c : Char} (hc : 103 ≤ c.toNat) (n : Nat) : c ∉ natStr 16 n := by
  intro h
  obtain ⟨d, hd, rfl⟩ := natStr_digits (by omega) n c h
  rw [digitC_toNat hd] at hc
  split at hc <;> omega

/-- A number followed by a character that is no digit of it can be read off. -/
theorem number_delimited {b : Nat} (hb : 2 ≤ b) (hb' : b ≤ 16) {n m : Nat} {c : Char} {x y : Str}
    (hc : ∀ k, c ∉ natStr b k) (h : natStr b n ++ c :: x = natStr b m ++ c :: y) : n = m ∧ x = y := by
  have h1 := splitOnce_append (hc n) x
  have h2 := splitOnce_append (hc m) y
  rw [h] at h1
  rw [h1] at h2
  simp only [Option.some.injEq, Prod.mk.injEq] at h2
  exact ⟨natStr_inj hb hb' h2.1, h2.2⟩

theorem escapeDebug_delimited (pr : Char → Bool) : SelfDelimited (escapeDebug pr) := by
  intro c c' x x' h
  rcases escapeDebug_cases pr c with ⟨e, h1, -, -⟩ | ⟨k, e, h1, h2, -⟩ | e <;>
  rcases escapeDebug_cases pr c' with ⟨e', h1', -, -⟩ | ⟨k', e', h1', h2', -⟩ | e' <;>
  rw [e, e'] at h <;> simp only [List.cons_append, List.nil_append, List.append_assoc, List.cons.injEq] at h
  · exact h
  · exact absurd h.1 h1
  · exact absurd h.1 h1
  · exact absurd h.1.symm h1'
  · obtain ⟨-, rfl, rfl⟩ := h
    exact ⟨h2.symm.trans h2', rfl⟩
  · exact absurd h.2.1 h1
  · exact absurd h.1.symm h1'
  · exact absurd h.2.1.symm h1'
  · obtain ⟨hn, hx⟩ := number_delimited (by omega) (by omega) (not_mem_hex (by decide)) h.2.2.2
    exact ⟨char_eq_of_toNat hn, hx⟩

theorem escapeDebug_head (pr : Char → Bool) (c : Char) : ∃ d s, escapeDebug pr c = d :: s ∧ d ≠ '"' := by
  rcases escapeDebug_cases pr c with ⟨e, -, h, -⟩ | ⟨k, e, -⟩ | e
  · exact ⟨c, [], e, h⟩
  · exact ⟨'\\', [k], e, by decide⟩
  · exact ⟨'\\', _, e, by decide⟩

theorem debugStr_delimited (pr : Char → Bool) : SelfDelimited (debugStr pr) := by
  intro s s' x x' h
  simp only [debugStr, List.cons_append, List.nil_append, List.append_assoc, List.cons.injEq, true_and] at h
  induction s generalizing s' with
  | nil =>
    cases s' with
    | nil => simpa using h
    | cons c' s' =>
      obtain ⟨d, t, e, hd⟩ := escapeDebug_head pr c'
      rw [List.flatMap_cons, e] at h
      simp only [List.flatMap_nil, List.nil_append, List.cons_append, List.cons.injEq] at h
      exact absurd h.1.symm hd
  | cons c s ih =>
    cases s' with
    | nil =>
      obtain ⟨d, t, e, hd⟩ := escapeDebug_head pr c
      rw [List.flatMap_cons, e] at h
      simp only [List.flatMap_nil, List.nil_append, List.cons_append, List.cons.injEq] at h
      exact absurd h.1 hd
    | cons c' s' =>
      rw [List.flatMap_cons, List.flatMap_cons, List.append_assoc, List.append_assoc] at h
      obtain ⟨rfl, h1⟩ := escapeDebug_delimited pr _ _ _ _ h
      obtain ⟨rfl, h2⟩ := ih s' h1
      exact ⟨rfl, h2⟩

/-- Entries separated by a comma and a space and closed by a character no entry begins with. -/
theorem join_delimited {α : Type} {f : α → Str} (hf : SelfDelimited f) {c : Char} (hc : c ≠ ',')
    (h0 : ∀ a, ∃ d s, f a = d :: s ∧ d ≠ c) :
    SelfDelimited fun as : List α => join s!!", " (as.map f) ++ [c] := by
  intro as as' x x' h
  simp only [List.append_assoc, List.cons_append, List.nil_append] at h
  induction as generalizing as' with
  | nil =>
    cases as' with
    | nil => simpa [join] using h
    | cons a' as' =>
      obtain ⟨d, s, e, hd⟩ := h0 a'
      cases as' with
      | nil => simp [join, e] at h; exact absurd h.1.symm hd
      | cons b' as' => simp [join, e] at h; exact absurd h.1.symm hd
  | cons a as ih =>
    cases as' with
    | nil =>
      obtain ⟨d, s, e, hd⟩ := h0 a
      cases as with
      | nil => simp [join, e] at h; exact absurd h.1 hd
      | cons b as => simp [join, e] at h; exact absurd h.1 hd
    | cons a' as' =>
      cases as with
      | nil =>
        cases as' with
        | nil =>
          obtain ⟨rfl, h1⟩ := hf _ _ _ _ h
          simpa using h1
        | cons b' as' =>
          simp only [List.map_cons, List.map_nil, join, List.append_assoc] at h
          obtain ⟨-, h⟩ := hf _ _ _ _ h
          simp at h
          exact absurd h.1 hc
      | cons b as =>
        cases as' with
        | nil =>
          simp only [List.map_cons, List.map_nil, join, List.append_assoc] at h
          obtain ⟨-, h⟩ := hf _ _ _ _ h
          simp at h
          exact absurd h.1.symm hc
        | cons b' as' =>
          simp only [List.map_cons, join, List.append_assoc] at h
          obtain ⟨rfl, h1⟩ := hf _ _ _ _ h
          obtain ⟨he, h2⟩ := ih (b' :: as') (List.append_cancel_left h1)
          exact ⟨by rw [he], h2⟩

theorem debugStr_head (pr : Char → Bool) (s : Str) : ∃ t, debugStr pr s = '"' :: t := ⟨_, rfl⟩

theorem display_delimited (pr : Char → Bool) : SelfDelimited (HeaderValues.display pr) := by
  intro vs vs' x x' h
  simp only [HeaderValues.display, debugList, List.append_assoc, List.cons_append, List.nil_append, List.cons.injEq,
    true_and] at h
  exact join_delimited (debugStr_delimited pr) (c := ']') (by decide)
    (fun a => ⟨'"', _, (debugStr_head pr a).choose_spec, by decide⟩) vs vs' x x'
    (by simp only [List.append_assoc, List.cons_append, List.nil_append]; exact h)

theorem debug_of_ne {pr : Char → Bool} {vs : HeaderValues} (h : ∀ v, vs ≠ [v]) :
    HeaderValues.debug pr vs = HeaderValues.display pr vs := by
  unfold HeaderValues.debug
  split
  · exact absurd rfl (h _)
  · rfl

theorem values_delimited (pr : Char → Bool) : SelfDelimited (HeaderValues.debug pr) := by
  intro vs vs' x x' h
  by_cases h1 : ∃ v, vs = [v] <;> by_cases h2 : ∃ v, vs' = [v]
  · obtain ⟨v, rfl⟩ := h1; obtain ⟨v', rfl⟩ := h2
    obtain ⟨rfl, h1⟩ := debugStr_delimited pr v v' x x' h
    exact ⟨rfl, h1⟩
  · obtain ⟨v, rfl⟩ := h1
    rw [debug_of_ne (vs := vs') (fun v e => h2 ⟨v, e⟩)] at h
    simp [HeaderValues.debug, HeaderValue.debug, debugStr, HeaderValues.display, debugList] at h
  · obtain ⟨v, rfl⟩ := h2
    rw [debug_of_ne (vs := vs) (fun v e => h1 ⟨v, e⟩)] at h
    simp [HeaderValues.debug, HeaderValue.debug, debugStr, HeaderValues.display, debugList] at h
  · rw [debug_of_ne (fun v e => h1 ⟨v, e⟩), debug_of_ne (fun v e => h2 ⟨v, e⟩)] at h
    exact display_delimited pr _ _ _ _ h

/-- C90: the printed text of a collection tells the collection: every name and the exact list of values of every name,
for every visiting order. -/
theorem C90_collection (pr : Char → Bool) (m m' : Headers) : m.debug pr = m'.debug pr ↔ m = m' := by
  refine ⟨fun h => ?_, fun h => by rw [h]⟩
  have hf : SelfDelimited fun e : HeaderName × HeaderValues =>
      HeaderName.debug pr e.1 ++ s!!": " ++ HeaderValues.debug pr e.2 := by
    rintro ⟨n, vs⟩ ⟨n', vs'⟩ x x' h
    simp only [List.append_assoc] at h
    obtain ⟨rfl, h1⟩ := debugStr_delimited pr _ _ _ _ h
    obtain ⟨rfl, h2⟩ := values_delimited pr _ _ _ _ (List.append_cancel_left h1)
    exact ⟨rfl, h2⟩
  have h' := join_delimited hf (c := '}') (by decide) (fun e => ⟨'"', _, rfl, by decide⟩) m m' [] []
    (by
      simp only [Headers.debug, debugMap, List.map_map, List.append_assoc, List.cons_append, List.nil_append,
        List.cons.injEq, true_and] at h
      simpa [Function.comp_def] using h)
  exact h'.1

example (pr : Char → Bool) : Headers.debug pr [(s!!"a", [s!!"x", s!!"y"])] = s!!"{\"a\": [\"x\", \"y\"]}" := by
  simp [Headers.debug, debugMap, HeaderValues.debug, debugList, join, HeaderName.debug, HeaderValue.debug, debugStr,
    escapeDebug]
example (pr : Char → Bool) : Headers.debug pr [(s!!"a", [s!!"x\n"])] ≠ Headers.debug pr [(s!!"a", [s!!"x\\n"])] := by
  rw [Ne, C90_collection]; decide

/-- C90: so do the printed texts of a list of values, in both forms; the two forms agree except for one value. -/
theorem C90_values (pr : Char → Bool) (vs vs' : HeaderValues) :
    (vs.debug pr = vs'.debug pr ↔ vs = vs') ∧ (vs.display pr = vs'.display pr ↔ vs = vs') ∧
      (vs.debug pr = vs'.display pr ↔ vs = vs' ∧ ∀ v, vs ≠ [v]) ∧
      ∀ v v' : HeaderValue, v.debug pr = v'.debug pr ↔ v = v' := by
  refine ⟨⟨fun h => ?_, fun h => by rw [h]⟩, ⟨fun h => ?_, fun h => by rw [h]⟩, ⟨fun h => ?_, fun h => ?_⟩, fun v v' =>
    ⟨fun h => ?_, fun h => by rw [h]⟩⟩
  · exact (values_delimited pr vs vs' [] [] (by rw [h])).1
  · exact (display_delimited pr vs vs' [] [] (by rw [h])).1
  · by_cases h1 : ∃ v, vs = [v]
    · obtain ⟨v, rfl⟩ := h1
      simp [HeaderValues.debug, HeaderValue.debug, debugStr, HeaderValues.display, debugList] at h
    · have h2 : ∀ v, vs ≠ [v] := fun v e => h1 ⟨v, e⟩
      rw [debug_of_ne h2] at h
      exact ⟨(display_delimited pr vs vs' [] [] (by rw [h])).1, h2⟩
  · rw [debug_of_ne h.2, h.1]
  · exact (debugStr_delimited pr v v' [] [] (by unfold HeaderValue.debug at h; rw [h])).1

example (pr : Char → Bool) : HeaderValues.debug pr [s!!"a, b"] ≠ HeaderValues.debug pr [s!!"a", s!!"b"] := by
  rw [Ne, (C90_values pr _ _).1]; decide

theorem escapeDebug_line (pr : Char → Bool) (c : Char) : OneLine (escapeDebug pr c) := by
  intro d hd
  rcases escapeDebug_cases pr c with ⟨e, -, -, h⟩ | ⟨k, e, -, -, h⟩ | e
  · rw [e] at hd; simp at hd; rw [hd]; exact h
  · rw [e] at hd; simp at hd
    rcases hd with rfl | rfl
    · decide
    · exact h
  · rw [e] at hd
    simp only [List.mem_append, List.mem_cons, List.not_mem_nil, or_false] at hd
    rcases hd with ((rfl | rfl | rfl) | hd) | rfl
    · decide
    · decide
    · decide
    · obtain ⟨k, hk, rfl⟩ := natStr_digits (by omega) _ _ hd
      rw [digitC_toNat hk]
      split <;> omega
    · decide

theorem oneLine_append {a b : Str} (ha : OneLine a) (hb : OneLine b) : OneLine (a ++ b) := by
  intro c hc
  rcases List.mem_append.mp hc with h | h
  · exact ha c h
  · exact hb c h

theorem oneLine_join {sep : Str} (hs : OneLine sep) : ∀ {xs : List Str}, (∀ x ∈ xs, OneLine x) → OneLine (join sep xs)
  | [], _ => by simp [join, OneLine]
  | [x], h => h x (by simp)
  | x :: y :: ys, h => oneLine_append (oneLine_append (h x (by simp)) hs) (oneLine_join hs fun z hz => h z (by simp [hz]))

theorem debugStr_line (pr : Char → Bool) (s : Str) : OneLine (debugStr pr s) := by
  refine oneLine_append (oneLine_append (by decide) ?_) (by decide)
  intro c hc
  obtain ⟨d, -, hd⟩ := List.mem_flatMap.mp hc
  exact escapeDebug_line pr d c hd

theorem display_line (pr : Char → Bool) (vs : HeaderValues) : OneLine (vs.display pr) := by
  refine oneLine_append (oneLine_append (by decide) (oneLine_join (by decide) ?_)) (by decide)
  intro x hx
  obtain ⟨v, -, rfl⟩ := List.mem_map.mp hx
  exact debugStr_line pr v

theorem values_line (pr : Char → Bool) (vs : HeaderValues) : OneLine (vs.debug pr) := by
  by_cases h1 : ∃ v, vs = [v]
  · obtain ⟨v, rfl⟩ := h1; exact debugStr_line pr v
  · rw [debug_of_ne fun v e => h1 ⟨v, e⟩]; exact display_line pr vs

/-- C90: whatever the names and values hold, the printed texts are one line without control characters. -/
theorem C90_one_line (pr : Char → Bool) :
    (∀ n : HeaderName, OneLine (n.debug pr)) ∧ (∀ v : HeaderValue, OneLine (v.debug pr)) ∧
      (∀ vs : HeaderValues, OneLine (vs.debug pr) ∧ OneLine (vs.display pr)) ∧ ∀ m : Headers, OneLine (m.debug pr) := by
  refine ⟨debugStr_line pr, debugStr_line pr, fun vs => ⟨values_line pr vs, display_line pr vs⟩, fun m => ?_⟩
  refine oneLine_append (oneLine_append (by decide) (oneLine_join (by decide) ?_)) (by decide)
  intro x hx
  simp only [List.map_map, List.mem_map, Function.comp_apply] at hx
  obtain ⟨e, -, rfl⟩ := hx
  exact oneLine_append (oneLine_append (debugStr_line pr e.1) (by decide)) (values_line pr e.2)

example (pr : Char → Bool) : OneLine (HeaderValue.debug pr s!!"a\r\nset-cookie: b") := (C90_one_line pr).2.1 _
example : ¬ OneLine s!!"a\r\nset-cookie: b" := by decide

/-- C90: a body prints its declared length and how much was read, and nothing of its content or media type. -/
theorem C90_body {σ τ : Type} (b : Body σ) (b' : Body τ) :
    b.debug = b'.debug ↔ b.length = b'.length ∧ b.bytesRead = b'.bytesRead := by
  refine ⟨fun h => ?_, fun h => by simp only [Body.debug, h.1, h.2]⟩
  have nb : ∀ k, ')' ∉ natStr 10 k := fun k => not_mem_dec (by decide) k
  have ns : ∀ k, ' ' ∉ natStr 10 k := fun k => not_mem_dec (by decide) k
  simp only [Body.debug, List.append_assoc] at h
  have h := List.append_cancel_left h
  cases hl : b.length with
  | none =>
    cases hl' : b'.length with
    | none =>
      rw [hl, hl'] at h
      simp only [debugOptNat, dec, List.append_cancel_left_eq] at h
      exact ⟨rfl, (number_delimited (by omega) (by omega) ns h).1⟩
    | some n' => rw [hl, hl'] at h; simp [debugOptNat] at h
  | some n =>
    cases hl' : b'.length with
    | none => rw [hl, hl'] at h; simp [debugOptNat] at h
    | some n' =>
      rw [hl, hl'] at h
      simp only [debugOptNat, dec, List.append_assoc, List.append_cancel_left_eq] at h
      obtain ⟨rfl, h1⟩ := number_delimited (by omega) (by omega) nb h
      exact ⟨rfl, (number_delimited (by omega) (by omega) ns (List.append_cancel_left h1)).1⟩

example : (Body.fromString s!!"secret").debug =
    s!!"Body { reader: \"<hidden>\", length: Some(6), bytes_read: 0 }" := by
  decide +kernel
example : (Body.fromString s!!"secret").debug = (Body.fromString s!!"public").debug := by
  rw [C90_body]; decide
example : (Body.fromString s!!"secret").debug ≠ (Body.fromString s!!"open").debug := by
  rw [Ne, C90_body]; decide

end HT
