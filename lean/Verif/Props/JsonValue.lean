import Verif.Model.JsonValue
import Verif.Spec.JsonValue
import Verif.Props.Json
import Verif.Props.Form

/-! C141: JSON put into a request arrives. -/

namespace HT
open Spec

/-- Induction over values. -/
theorem Spec.Json.ind {P : Json → Prop} (null : P .null) (bool : ∀ b, P (.bool b)) (int : ∀ n, P (.int n)) (str : ∀ s, P (.str s))
    (arr : ∀ l, (∀ v ∈ l, P v) → P (.arr l)) (obj : ∀ l, (∀ p ∈ l, P p.2) → P (.obj l)) (j : Json) : P j := by
  refine Json.rec (motive_1 := P) (motive_2 := fun l => ∀ v ∈ l, P v) (motive_3 := fun l => ∀ p ∈ l, P p.2)
    (motive_4 := fun p => P p.2) null bool int str arr obj ?_ ?_ ?_ ?_ ?_ j
  · simp
  · intro v l h1 h2 w hw
    rcases List.mem_cons.1 hw with rfl | hw
    · exact h1
    · exact h2 w hw
  · simp
  · intro v l h1 h2 w hw
    rcases List.mem_cons.1 hw with rfl | hw
    · exact h1
    · exact h2 w hw
  · exact fun _ _ h => h

theorem jsonTexts_eq (l : List Json) : jsonTexts l = l.map jsonText := by
  induction l with
  | nil => rfl
  | cons v l ih => rw [jsonTexts, ih]; rfl

theorem jsonFields_eq (l : List (Str × Json)) : jsonFields l = l.map fun p => (p.1, jsonText p.2) := by
  induction l with
  | nil => rfl
  | cons p l ih => obtain ⟨k, v⟩ := p; rw [jsonFields, ih]; rfl

theorem join_sum (ts : List Str) {t : Str} (h : t ∈ ts) : t.length + ts.length ≤ (join s!!"," ts).length + 1 := by
  induction ts with
  | nil => cases h
  | cons u ts ih =>
    cases ts with
    | nil =>
      obtain rfl : t = u := by simpa using h
      simp [join]
    | cons y ys =>
      simp only [join, List.length_append, List.length_cons, List.length_nil] at *
      rcases List.mem_cons.1 h with rfl | h
      · have : ys.length ≤ (join s!!"," (y :: ys)).length := by
          clear ih h
          induction ys generalizing y with
          | nil => simp
          | cons z zs ih2 => simp only [join, List.length_append, List.length_cons, List.length_nil]; have := ih2 z; omega
        omega
      · have := ih h
        omega

/-- The bound that `parseJson` starts with is enough for what is written. -/
theorem writes_text (j : Json) : Writes (jsonText j).length (jsonText j) j := by
  induction j using Spec.Json.ind with
  | null =>
    refine ⟨⟨'n', _, rfl, by decide, by decide, by decide⟩, ?_⟩
    rintro n r hn -
    obtain ⟨n, rfl⟩ : ∃ m, n = m + 1 := ⟨n - 1, by simp [jsonText] at hn; omega⟩
    simp only [jsonText, List.cons_append, List.nil_append]
    rw [readValue, skip_cons (by decide)]
    simp [readWord]
  | bool b => exact writes_mono (writes_bool b) (by cases b <;> decide)
  | int n =>
    obtain ⟨⟨c, t, h, -⟩, -⟩ := writes_int n
    exact writes_mono (writes_int n) (by rw [jsonText, h]; simp)
  | str s => exact writes_mono (writes_str s) (by rw [jsonText, jsonStr]; simp)
  | arr l ih =>
    rw [jsonText, jsonTexts_eq]
    have hl : (jsonArr (l.map jsonText)).length = (join s!!"," (l.map jsonText)).length + 2 := by simp [jsonArr]
    have := writes_arr (k := (join s!!"," (l.map jsonText)).length + 1 - l.length) (l.map fun v => (jsonText v, v)) (by
      intro x hx
      obtain ⟨v, hv, rfl⟩ := List.mem_map.1 hx
      have := join_sum (l.map jsonText) (List.mem_map_of_mem (f := jsonText) hv)
      rw [List.length_map] at this
      exact writes_mono (ih v hv) (by omega))
    simp only [List.map_map, List.length_map, Function.comp_def, List.map_id'] at this
    refine writes_mono this ?_
    rw [hl]
    have h2 : l.length ≤ (join s!!"," (l.map jsonText)).length + 1 := by
      cases l with
      | nil => simp
      | cons v l => have := join_sum ((v :: l).map jsonText) (List.mem_map_of_mem (f := jsonText) (List.mem_cons_self ..)); simp only [List.length_map] at this; omega
    omega
  | obj l ih =>
    rw [jsonText, jsonFields_eq]
    have hl : (jsonObj (l.map fun p => (p.1, jsonText p.2))).length = (join s!!"," (l.map fun p => member (p.1, jsonText p.2))).length + 2 := by
      simp [jsonObj, member, Function.comp_def]
    have := writes_obj (k := (join s!!"," (l.map fun p => member (p.1, jsonText p.2))).length + 1 - l.length) (l.map fun p => (p.1, jsonText p.2, p.2)) (by
      intro x hx
      obtain ⟨p, hp, rfl⟩ := List.mem_map.1 hx
      have := join_sum (l.map fun p => member (p.1, jsonText p.2)) (List.mem_map_of_mem (f := fun p => member (p.1, jsonText p.2)) hp)
      rw [List.length_map] at this
      refine writes_mono (ih p hp) ?_
      have h2 : (jsonText p.2).length ≤ (member (p.1, jsonText p.2)).length := by simp [member]; omega
      omega)
    simp only [List.map_map, List.length_map, Function.comp_def, List.map_id'] at this
    refine writes_mono this ?_
    rw [hl]
    have h2 : l.length ≤ (join s!!"," (l.map fun p => member (p.1, jsonText p.2))).length + 1 := by
      cases l with
      | nil => simp
      | cons v l => have := join_sum ((v :: l).map fun p => member (p.1, jsonText p.2)) (List.mem_map_of_mem (f := fun p : Str × Json => member (p.1, jsonText p.2)) (List.mem_cons_self ..)); simp only [List.length_map] at this; omega
    omega

/-- Read as JSON, the text of a value is the value. -/
theorem C141_text (j : Json) : parseJson (jsonText j) = some j := by
  unfold parseJson
  have := (writes_text j).2 ((jsonText j).length + 1) [] (by omega) (by intro c hc; cases hc)
  rw [List.append_nil] at this
  rw [this]
  rfl

example : jsonText (.obj [(s!!"a\n", .arr [.null, .int (-3), .str s!!"\""]), (s!!"b", .bool true)]) =
    s!!"{\"a\\n\":[null,-3,\"\\\"\"],\"b\":true}" := by decide +kernel

/-- Different values have different texts. -/
theorem C141_distinct (i j : Json) : jsonText i = jsonText j ↔ i = j := by
  refine ⟨fun h => ?_, fun h => by rw [h]⟩
  have := C141_text i
  rw [h, C141_text j] at this
  cases this
  rfl

example : jsonText (.str s!!"1") ≠ jsonText (.int 1) := by rw [ne_eq, C141_distinct]; simp

/-- The text is on one line: it has no control characters below the space. -/
theorem C141_line (j : Json) (c : Char) (h : c ∈ jsonText j) : 32 ≤ c.toNat := by
  have hs : ∀ s : Str, ∀ c ∈ jsonStr s, 32 ≤ c.toNat := by
    intro s c hc
    simp only [jsonStr, List.mem_cons, List.mem_append, List.mem_flatMap, List.not_mem_nil, or_false] at hc
    rcases hc with rfl | ⟨d, -, hd⟩ | rfl
    · decide
    · exact (mem_jsonChar hd).1
    · decide
  induction j using Spec.Json.ind generalizing c with
  | null => revert c; decide
  | bool b => revert c; cases b <;> decide
  | int n =>
    have hd : ∀ m, ∀ c ∈ dec m, 32 ≤ c.toNat := by
      intro m c hc
      have := dec_digits m c hc
      simp only [isDigit, Bool.and_eq_true, decide_eq_true_eq] at this
      omega
    simp only [jsonText, jsonInt] at h
    split at h
    · rcases List.mem_cons.1 h with rfl | h
      · decide
      · exact hd _ c h
    · exact hd _ c h
  | str s => exact hs s c h
  | arr l ih =>
    rw [jsonText, jsonTexts_eq] at h
    simp only [jsonArr, List.mem_cons, List.mem_append, List.not_mem_nil, or_false] at h
    rcases h with rfl | h | rfl
    · decide
    · refine all_join (P := fun c => 32 ≤ c.toNat) (by decide) _ ?_ c h
      intro t ht d hd
      obtain ⟨v, hv, rfl⟩ := List.mem_map.1 ht
      exact ih v hv d hd
    · decide
  | obj l ih =>
    rw [jsonText, jsonFields_eq] at h
    simp only [jsonObj, List.mem_cons, List.mem_append, List.not_mem_nil, or_false] at h
    rcases h with rfl | h | rfl
    · decide
    · refine all_join (P := fun c => 32 ≤ c.toNat) (by decide) _ ?_ c h
      intro t ht d hd
      rw [List.map_map] at ht
      obtain ⟨p, hp, rfl⟩ := List.mem_map.1 ht
      simp only [Function.comp_def, List.mem_append, List.mem_cons] at hd
      rcases hd with hd | rfl | hd
      · exact hs _ d hd
      · decide
      · exact ih p hp d hd
    · decide

example : jsonText (.str [Char.ofNat 10, Char.ofNat 127]) = ['"', '\\', 'n', Char.ofNat 127, '"'] := by decide +kernel

theorem areValues_iff (l : List Json) : AreValues l ↔ ∀ v ∈ l, IsValue v := by
  induction l with
  | nil => simp [AreValues]
  | cons v l ih => simp [AreValues, ih]

theorem areMembers_iff (l : List (Str × Json)) : AreMembers l ↔ ∀ p ∈ l, IsValue p.2 := by
  induction l with
  | nil => simp [AreMembers]
  | cons p l ih => obtain ⟨k, v⟩ := p; simp only [AreMembers, ih, IsMember]; simp

theorem jsonDepths_le (l : List Json) (n : Nat) : jsonDepths l ≤ n ↔ ∀ v ∈ l, jsonDepth v ≤ n := by
  induction l with
  | nil => simp [jsonDepths]
  | cons v l ih => simp [jsonDepths, ih]

theorem jsonDepthsM_le (l : List (Str × Json)) (n : Nat) : jsonDepthsM l ≤ n ↔ ∀ p ∈ l, jsonDepth p.2 ≤ n := by
  induction l with
  | nil => simp [jsonDepthsM]
  | cons p l ih =>
    obtain ⟨k, v⟩ := p
    rw [jsonDepthsM, jsonDepthP, Nat.max_le, ih, List.forall_mem_cons]

theorem depth_iff (j : Json) (n : Nat) : jsonDepth j ≤ n ↔ Nested n j := by
  induction j using Spec.Json.ind generalizing n with
  | null => simp [jsonDepth, Nested.null]
  | bool b => simp [jsonDepth, Nested.bool]
  | int n => simp [jsonDepth, Nested.int]
  | str s => simp [jsonDepth, Nested.str]
  | arr l ih =>
    rw [jsonDepth]
    constructor
    · intro h
      obtain ⟨n, rfl⟩ : ∃ m, n = m + 1 := ⟨n - 1, by omega⟩
      exact .arr fun v hv => (ih v hv n).1 ((jsonDepths_le l n).1 (by omega) v hv)
    · intro h
      cases h with
      | arr h =>
        rename_i n
        have := (jsonDepths_le l n).2 fun v hv => (ih v hv n).2 (h v hv)
        omega
  | obj l ih =>
    rw [jsonDepth]
    constructor
    · intro h
      obtain ⟨n, rfl⟩ : ∃ m, n = m + 1 := ⟨n - 1, by omega⟩
      exact .obj fun v hv => (ih v hv n).1 ((jsonDepthsM_le l n).1 (by omega) v hv)
    · intro h
      cases h with
      | obj h =>
        rename_i n
        have := (jsonDepthsM_le l n).2 fun v hv => (ih v hv n).2 (h v hv)
        omega

theorem insert_last (k : Str) (v : Json) (m : List (Str × Json)) (h : ∀ p ∈ m, p.1 < k) : jsonInsert k v m = m ++ [(k, v)] := by
  induction m with
  | nil => rfl
  | cons p m ih =>
    obtain ⟨k', v'⟩ := p
    have h1 := h (k', v') (by simp)
    rw [jsonInsert, if_neg (by rintro rfl; exact List.lt_irrefl _ h1), if_neg (List.lt_asymm h1), ih fun p hp => h p (by simp [hp])]
    rfl

theorem keepL_same (l : List Json) (h : ∀ v ∈ l, jsonKeep v = some v) : jsonKeepL l = some l := by
  induction l with
  | nil => rfl
  | cons v l ih => rw [jsonKeepL, h v (by simp), ih fun w hw => h w (by simp [hw])]; rfl

theorem keepM_same (l m : List (Str × Json)) (h : ∀ p ∈ l, jsonKeep p.2 = some p.2) (hs : (m ++ l).Pairwise fun p q => p.1 < q.1) :
    jsonKeepM m l = some (m ++ l) := by
  induction l generalizing m with
  | nil => rw [jsonKeepM, List.append_nil]
  | cons p l ih =>
    obtain ⟨k, v⟩ := p
    have hk := h (k, v) (by simp)
    simp only at hk
    rw [jsonKeepM, jsonKeepP, hk]
    simp only [Option.map_some, Option.bind_some]
    rw [insert_last, ih (m ++ [(k, v)]) (fun p hp => h p (by simp [hp])) (by simpa using hs)]
    · simp
    · exact fun p hp => (List.pairwise_append.1 hs).2.2 p hp (k, v) (by simp)

theorem keep_same (j : Json) (h : IsValue j) : jsonKeep j = some j := by
  induction j using Spec.Json.ind with
  | null => rfl
  | bool b => rfl
  | int n =>
    rw [IsValue] at h
    rw [jsonKeep, if_pos (by omega)]
  | str s => rfl
  | arr l ih =>
    rw [IsValue, areValues_iff] at h
    rw [jsonKeep, keepL_same l fun v hv => ih v hv (h v hv)]
    rfl
  | obj l ih =>
    rw [IsValue, areMembers_iff] at h
    rw [jsonKeep, keepM_same l [] (fun p hp => ih p hp (h.2 p hp)) (by simpa using h.1)]
    rfl

theorem insert_mem {k : Str} {v : Json} {m : List (Str × Json)} {p : Str × Json} (h : p ∈ jsonInsert k v m) : p = (k, v) ∨ p ∈ m := by
  induction m with
  | nil => simpa [jsonInsert] using h
  | cons q m ih =>
    obtain ⟨k', v'⟩ := q
    rw [jsonInsert] at h
    split at h
    · simp only [List.mem_cons] at h ⊢; tauto
    · split at h
      · simp only [List.mem_cons] at h ⊢; tauto
      · simp only [List.mem_cons] at h ⊢
        rcases h with h | h
        · tauto
        · rcases ih h with h | h <;> tauto

theorem insert_sorted (k : Str) (v : Json) (m : List (Str × Json)) (h : m.Pairwise fun p q => p.1 < q.1) :
    (jsonInsert k v m).Pairwise fun p q => p.1 < q.1 := by
  induction m with
  | nil => simp [jsonInsert]
  | cons q m ih =>
    obtain ⟨k', v'⟩ := q
    rw [List.pairwise_cons] at h
    rw [jsonInsert]
    split
    · rename_i he
      subst he
      exact List.pairwise_cons.2 ⟨h.1, h.2⟩
    · rename_i hne
      split
      · rename_i hlt
        refine List.pairwise_cons.2 ⟨?_, List.pairwise_cons.2 h⟩
        intro p hp
        rcases List.mem_cons.1 hp with rfl | hp
        · exact hlt
        · exact List.lt_trans hlt (h.1 p hp)
      · rename_i hlt
        refine List.pairwise_cons.2 ⟨?_, ih h.2⟩
        intro p hp
        rcases insert_mem hp with rfl | hp
        · by_contra h1
          exact hne (List.le_antisymm (List.not_lt.1 h1) (List.not_lt.1 hlt))
        · exact h.1 p hp

/-- Whatever is kept is a value. -/
theorem keep_value (j : Json) : ∀ v, jsonKeep j = some v → IsValue v := by
  induction j using Spec.Json.ind with
  | null => rintro v h; cases h; trivial
  | bool b => rintro v h; cases h; trivial
  | int n =>
    intro v h
    rw [jsonKeep] at h
    split at h
    · cases h; rw [IsValue]; omega
    · cases h
  | str s => rintro v h; cases h; trivial
  | arr l ih =>
    intro v h
    rw [jsonKeep, Option.map_eq_some_iff] at h
    obtain ⟨m, hm, rfl⟩ := h
    rw [IsValue, areValues_iff]
    induction l generalizing m with
    | nil => cases hm; simp
    | cons w l ih2 =>
      rw [jsonKeepL, Option.bind_eq_some_iff] at hm
      obtain ⟨w', h1, h2⟩ := hm
      obtain ⟨m', h3, rfl⟩ := Option.map_eq_some_iff.1 h2
      intro x hx
      rcases List.mem_cons.1 hx with rfl | hx
      · exact ih w (by simp) _ h1
      · exact ih2 (fun y hy => ih y (by simp [hy])) m' h3 x hx
  | obj l ih =>
    intro v h
    rw [jsonKeep, Option.map_eq_some_iff] at h
    obtain ⟨m, hm, rfl⟩ := h
    rw [IsValue, areMembers_iff]
    have key : ∀ (l m0 : List (Str × Json)), (∀ p ∈ l, ∀ v, jsonKeep p.2 = some v → IsValue v) →
        (m0.Pairwise fun p q => p.1 < q.1) → (∀ p ∈ m0, IsValue p.2) → ∀ m, jsonKeepM m0 l = some m →
        (m.Pairwise fun p q => p.1 < q.1) ∧ ∀ p ∈ m, IsValue p.2 := by
      intro l
      induction l with
      | nil => rintro m0 - h1 h2 m hm; cases hm; exact ⟨h1, h2⟩
      | cons q l ih2 =>
        obtain ⟨k, w⟩ := q
        intro m0 h0 h1 h2 m hm
        rw [jsonKeepM, jsonKeepP, Option.bind_eq_some_iff] at hm
        obtain ⟨_, h3, h4⟩ := hm
        obtain ⟨w', h5, rfl⟩ := Option.map_eq_some_iff.1 h3
        refine ih2 _ (fun p hp => h0 p (by simp [hp])) (insert_sorted k w' m0 h1) ?_ m h4
        intro p hp
        rcases insert_mem hp with rfl | hp
        · exact h0 (k, w) (by simp) _ h5
        · exact h2 p hp
    exact key l [] ih (by simp) (by simp) m hm

theorem keep_depth (j : Json) : ∀ v, jsonKeep j = some v → jsonDepth v ≤ jsonDepth j := by
  induction j using Spec.Json.ind with
  | null => rintro v h; cases h; exact Nat.le_refl _
  | bool b => rintro v h; cases h; exact Nat.le_refl _
  | int n =>
    intro v h
    rw [jsonKeep] at h
    split at h
    · cases h; exact Nat.le_refl _
    · cases h
  | str s => rintro v h; cases h; exact Nat.le_refl _
  | arr l ih =>
    intro v h
    rw [jsonKeep, Option.map_eq_some_iff] at h
    obtain ⟨m, hm, rfl⟩ := h
    rw [jsonDepth, jsonDepth]
    refine Nat.succ_le_succ ?_
    induction l generalizing m with
    | nil => cases hm; exact Nat.le_refl _
    | cons w l ih2 =>
      rw [jsonKeepL, Option.bind_eq_some_iff] at hm
      obtain ⟨w', h1, h2⟩ := hm
      obtain ⟨m', h3, rfl⟩ := Option.map_eq_some_iff.1 h2
      have := ih w (by simp) _ h1
      have := ih2 (fun y hy => ih y (by simp [hy])) m' h3
      rw [jsonDepths, jsonDepths]
      omega
  | obj l ih =>
    intro v h
    rw [jsonKeep, Option.map_eq_some_iff] at h
    obtain ⟨m, hm, rfl⟩ := h
    rw [jsonDepth, jsonDepth]
    refine Nat.succ_le_succ ?_
    rw [jsonDepthsM_le]
    have h0 := (jsonDepthsM_le l _).1 (Nat.le_refl _)
    generalize jsonDepthsM l = n at h0
    have key : ∀ (l m0 : List (Str × Json)), (∀ p ∈ l, ∀ v, jsonKeep p.2 = some v → jsonDepth v ≤ n) →
        (∀ p ∈ m0, jsonDepth p.2 ≤ n) → ∀ m, jsonKeepM m0 l = some m → ∀ p ∈ m, jsonDepth p.2 ≤ n := by
      intro l
      induction l with
      | nil => rintro m0 - h1 m hm; cases hm; exact h1
      | cons q l ih2 =>
        obtain ⟨k, w⟩ := q
        intro m0 h0 h1 m hm
        rw [jsonKeepM, jsonKeepP, Option.bind_eq_some_iff] at hm
        obtain ⟨_, h3, h4⟩ := hm
        obtain ⟨w', h5, rfl⟩ := Option.map_eq_some_iff.1 h3
        refine ih2 _ (fun p hp => h0 p (by simp [hp])) ?_ m h4
        intro p hp
        rcases insert_mem hp with rfl | hp
        · exact h0 (k, w) (by simp) _ h5
        · exact h1 p hp
    exact key l [] (fun p hp v hv => (ih p hp v hv).trans (h0 p hp)) (by simp) m hm

theorem fromSlice_text (j : Json) (hj : IsValue j) :
    jsonFromSlice (utf8Encode (jsonText j)) = if jsonDepth j < 128 then some j else none := by
  unfold jsonFromSlice
  rw [utf8Decode_encode, Option.bind_some, C141_text, Option.bind_some, keep_same j hj]

/-- What a reader gets from the text of a value is that value exactly if arrays and objects are at most 127 deep. Not for
deeper ones. -/
theorem C141_back_iff_partial (j : Json) (hj : IsValue j) : jsonFromSlice (utf8Encode (jsonText j)) = some j ↔ Nested 127 j := by
  rw [fromSlice_text j hj, ← depth_iff]
  constructor
  · intro h
    split at h
    · omega
    · cases h
  · intro h
    rw [if_pos (by omega)]

example : jsonFromSlice (utf8Encode (jsonText (arrays 127))) = some (arrays 127) := by
  refine (C141_back_iff_partial _ ?_).2 ?_
  · have : ∀ n, IsValue (arrays n) := by
      intro n
      induction n with
      | zero => exact trivial
      | succ n ih => rw [arrays, IsValue, AreValues, AreValues]; exact ⟨ih, trivial⟩
    exact this 127
  · have : ∀ n, Nested n (arrays n) := by
      intro n
      induction n with
      | zero => exact .null
      | succ n ih => exact .arr (by simpa using ih)
    exact this 127

/-- Whatever is read is a value that can be passed on: its text is read as the same value again. -/
theorem C141_passed_on (d : List Byte) (v : Json) (h : jsonFromSlice d = some v) :
    IsValue v ∧ jsonFromSlice (utf8Encode (jsonText v)) = some v := by
  unfold jsonFromSlice at h
  rw [Option.bind_eq_some_iff] at h
  obtain ⟨t, -, h⟩ := h
  rw [Option.bind_eq_some_iff] at h
  obtain ⟨j, -, h⟩ := h
  split at h
  · rename_i hd
    have hv := keep_value j v h
    have := keep_depth j v h
    exact ⟨hv, by rw [fromSlice_text v hv, if_pos (by omega)]⟩
  · cases h

example : (jsonFromSlice (utf8Encode s!!" { \"b\" : 1, \"a\" : [ ], \"b\" : 2 } ")).map jsonText = some s!!"{\"a\":[],\"b\":2}" := by
  decide +kernel

theorem insert_iff (k : Str) (v : Json) (m : List (Str × Json)) (h : m.Pairwise fun p q => p.1 < q.1) (p : Str × Json) :
    p ∈ jsonInsert k v m ↔ p = (k, v) ∨ (p ∈ m ∧ p.1 ≠ k) := by
  induction m with
  | nil => simp [jsonInsert]
  | cons q m ih =>
    obtain ⟨k', v'⟩ := q
    rw [List.pairwise_cons] at h
    have hlt : ∀ x ∈ m, k' < x.1 := h.1
    rw [jsonInsert]
    split
    · rename_i he
      subst he
      simp only [List.mem_cons]
      constructor
      · rintro (h1 | h1)
        · exact .inl h1
        · exact .inr ⟨.inr h1, fun h2 => List.lt_irrefl k (by simpa [h2] using hlt p h1)⟩
      · rintro (h1 | ⟨h1 | h1, h2⟩)
        · exact .inl h1
        · subst h1; exact absurd rfl h2
        · exact .inr h1
    · rename_i hne
      split
      · rename_i hk
        simp only [List.mem_cons]
        constructor
        · rintro (h1 | h1 | h1)
          · exact .inl h1
          · subst h1; exact .inr ⟨.inl rfl, fun h2 => hne h2.symm⟩
          · exact .inr ⟨.inr h1, fun h2 => List.lt_asymm hk (by simpa [h2] using hlt p h1)⟩
        · rintro (h1 | ⟨h1 | h1, h2⟩)
          · exact .inl h1
          · exact .inr (.inl h1)
          · exact .inr (.inr h1)
      · simp only [List.mem_cons, ih h.2]
        constructor
        · rintro (h1 | h1 | ⟨h1, h2⟩)
          · subst h1; exact .inr ⟨.inl rfl, fun h2 => hne h2.symm⟩
          · exact .inl h1
          · exact .inr ⟨.inr h1, h2⟩
        · rintro (h1 | ⟨h1 | h1, h2⟩)
          · exact .inr (.inl h1)
          · exact .inl h1
          · exact .inr (.inr ⟨h1, h2⟩)

theorem keepM_iff (l m0 m : List (Str × Json)) (hs : m0.Pairwise fun p q => p.1 < q.1) (h : jsonKeepM m0 l = some m) (k : Str) (w : Json) :
    (k, w) ∈ m ↔ (match (l.filter (·.1 = k)).getLast? with
      | some p => jsonKeep p.2 = some w
      | none => (k, w) ∈ m0) := by
  induction l generalizing m0 with
  | nil => cases h; simp
  | cons q l ih =>
    obtain ⟨a, v⟩ := q
    rw [jsonKeepM, jsonKeepP, Option.bind_eq_some_iff] at h
    obtain ⟨_, h3, h4⟩ := h
    obtain ⟨v', h5, rfl⟩ := Option.map_eq_some_iff.1 h3
    rw [ih _ (insert_sorted a v' m0 hs) h4]
    by_cases ha : a = k
    · subst ha
      rw [List.filter_cons_of_pos (by simp), List.getLast?_cons]
      cases hl : (l.filter (·.1 = a)).getLast? with
      | some p => rfl
      | none =>
        simp only [Option.getD_none, h5]
        rw [insert_iff _ _ _ hs]
        simp [eq_comm]
    · rw [List.filter_cons_of_neg (by simpa using ha)]
      cases hl : (l.filter (·.1 = k)).getLast? with
      | some p => rfl
      | none =>
        simp only
        rw [insert_iff _ _ _ hs]
        simp [Ne.symm ha]

/-- Of an object with several members of the same name the last one is kept, and every name is kept. -/
theorem C141_last (t : Str) (l m : List (Str × Json)) (ht : parseJson t = some (.obj l)) (h : jsonFromSlice (utf8Encode t) = some (.obj m))
    (k : Str) (w : Json) : (k, w) ∈ m ↔ ∃ p, (l.filter (·.1 = k)).getLast? = some p ∧ jsonKeep p.2 = some w := by
  unfold jsonFromSlice at h
  rw [utf8Decode_encode, Option.bind_some, ht, Option.bind_some] at h
  split at h
  · rw [jsonKeep, Option.map_eq_some_iff] at h
    obtain ⟨m', hm, he⟩ := h
    cases he
    rw [keepM_iff l [] m (by simp) hm]
    cases (l.filter (·.1 = k)).getLast? <;> simp
  · cases h

example : (jsonFromSlice (utf8Encode s!!"{\"a\":1,\"b\":2,\"a\":3}")).map jsonText = some s!!"{\"a\":3,\"b\":2}" := by decide +kernel

/-- A value put into a request is what its reader gets if arrays and objects are at most 127 deep, with the media type of JSON
when no other was chosen. Not for deeper ones. -/
theorem C141_request_partial {Url Ty : Type} {T : Ty → Type} [DecidableEq Ty] (j : Json) (hj : IsValue j) (hd : Nested 127 j)
    (r : ReqVal Url (Body (List Byte)) T) (ns : List Nat) (hns : ∀ n ∈ ns, n ≠ 0)
    (hl : (utf8Encode (jsonText j)).length < ns.length) :
    ∃ b, Body.fromJson (some (utf8Encode (jsonText j))) = .ok b ∧ b.len = some (utf8Encode (jsonText j)).length ∧
      let q := ReqOp.step (Body.iface []) r (.body (.set b))
      (q.bodyInto (Body.iface []) fun b => b.intoJson jsonFromSlice cursorI ns).1 = some (.ok j) ∧
      q.msg.headers.get s!!"content-type" = (r.msg.headers.get s!!"content-type").or (some [s!!"application/json"]) := by
  obtain ⟨b, hb, h1, h2, h3⟩ := (C64_json jsonFromSlice (some (utf8Encode (jsonText j)))).2 _ rfl
  refine ⟨b, hb, h1, ?_, ?_⟩
  · have : (ReqOp.step (Body.iface []) r (.body (.set b))).msg.body = b := C12_new_body _ _ (.set b)
    show Body.intoJson _ cursorI (ReqOp.step (Body.iface []) r (.body (.set b))).msg.body ns = _
    rw [this, h3 ns hns hl, (C141_back_iff_partial j hj).2 hd]
  · cases hg : r.msg.headers.get s!!"content-type" with
    | none =>
      have := (C12_absent (Body.iface []) r.msg (.set b) hg).2
      refine this.trans ?_
      cases hb
      rfl
    | some vs =>
      have := C12_present (Body.iface []) r.msg (.set b)
        (by rw [show CONTENT_TYPE = s!!"content-type" from rfl, hg]; simp)
      exact (congrArg (fun h => Headers.get h s!!"content-type") this).trans hg

example : ((Body.fromJson (some (utf8Encode (jsonText (.arr [.int 1]))))).bind fun b =>
    (b.intoJson jsonFromSlice cursorI [1, 2, 3, 4]).getD .panic).map jsonText = .ok s!!"[1]" := by decide +kernel

/-- A value that is deeper is put into a body without an error, but its reader gets 422. -/
theorem C141_violated_deep (j : Json) (hj : IsValue j) (hd : ¬ Nested 127 j) (ns : List Nat) (hns : ∀ n ∈ ns, n ≠ 0)
    (hl : (utf8Encode (jsonText j)).length < ns.length) :
    ∃ b, Body.fromJson (some (utf8Encode (jsonText j))) = .ok b ∧ b.intoJson jsonFromSlice cursorI ns = some (.err 422) := by
  obtain ⟨b, hb, h1, h2, h3⟩ := (C64_json jsonFromSlice (some (utf8Encode (jsonText j)))).2 _ rfl
  refine ⟨b, hb, ?_⟩
  rw [h3 ns hns hl, fromSlice_text j hj, if_neg]
  rw [← depth_iff] at hd
  omega

example : IsValue (arrays 128) ∧ ¬ Nested 127 (arrays 128) := by
  constructor
  · have : ∀ n, IsValue (arrays n) := by
      intro n
      induction n with
      | zero => exact trivial
      | succ n ih => rw [arrays, IsValue, AreValues, AreValues]; exact ⟨ih, trivial⟩
    exact this 128
  · rw [← depth_iff]
    decide +kernel

end HT
