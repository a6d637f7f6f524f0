import Verif.Lemmas.FMap
import Verif.Lemmas.Utf8
import Verif.Spec.Headers
import Mathlib.Data.List.Induction

namespace HT

theorem all_utf8Encode (s : Str) :
    (utf8Encode s).all (fun b => b.val < 128) = isAscii s := by
  induction s with
  | nil => rfl
  | cons c s ih =>
    have : utf8Encode (c :: s) = utf8EncodeC c ++ utf8Encode s := rfl
    rw [this, List.all_append, ih]
    have hc := char_range c
    have : (utf8EncodeC c).all (fun b => decide (b.val < 128)) = isAsciiC c := by
      unfold utf8EncodeC isAsciiC
      dsimp only
      split
      · rename_i h; simp [byte_val (n := c.toNat) (by omega), h]
      split
      · have h : decide (c.toNat < 128) = false := by simpa using by omega
        rw [h]; simp [byte_val (n := 192 + c.toNat / 64) (by omega)]; intro h'; omega
      split
      · have h : decide (c.toNat < 128) = false := by simpa using by omega
        rw [h]; simp [byte_val (n := 224 + c.toNat / 4096) (by omega)]; intro h'; omega
      · have h : decide (c.toNat < 128) = false := by simpa using by omega
        rw [h]; simp [byte_val (n := 240 + c.toNat / 262144) (by omega)]; intro h'; omega
    rw [this]; simp [isAscii]

namespace HeaderName

theorem lowerB_char {c : Char} (h : isAsciiC c = true) :
    Char.ofNat (lowerB (byte c.toNat)).val = lowerC c := by
  simp [isAsciiC] at h
  unfold lowerB lowerC
  rw [byte_val (by omega)]
  split
  · rw [byte_val (by omega)]
  · rw [byte_val (by omega), ofNat_toNat]

theorem fromString_eq (s : Str) : fromString s = fromStr s := by
  unfold fromString fromBytes fromStr
  rw [all_utf8Encode]
  by_cases h : isAscii s = true
  · rw [if_pos h, if_pos h, utf8Encode_ascii h]
    congr 1
    unfold lower
    rw [List.map_map, List.map_map]
    apply List.map_congr_left
    intro c hc
    exact lowerB_char (List.all_eq_true.mp h c hc)
  · rw [if_neg h, if_neg h]

theorem fromStr_ok_iff {s n : Str} : fromStr s = .ok n ↔ isAscii s = true ∧ n = lower s := by
  unfold fromStr
  by_cases h : isAscii s = true
  · rw [if_pos h]; simp [h]; exact eq_comm
  · rw [if_neg h]; simp [h]

theorem ofStr_ok_iff {s n : Str} : ofStr s = .ok n ↔ isAscii s = true ∧ n = lower s := by
  unfold ofStr fromStr
  by_cases h : isAscii s = true
  · rw [if_pos h]; simp [h]; exact eq_comm
  · rw [if_neg h]; simp [h]

theorem ofStr_ascii {s : Str} (h : isAscii s = true) : ofStr s = .ok (lower s) :=
  ofStr_ok_iff.mpr ⟨h, rfl⟩

theorem ofStr_not_ascii {s : Str} (h : isAscii s = false) : ofStr s = .panic := by
  unfold ofStr fromStr; simp [h]

end HeaderName

theorem sameChar_iff (a b : Char) :
    Spec.sameChar a b = true ↔ isAsciiC a = true ∧ isAsciiC b = true ∧ lowerC a = lowerC b := by
  have key : lowerC a = lowerC b ↔ (lowerC a).toNat = (lowerC b).toNat :=
    ⟨fun h => by rw [h], char_eq_of_toNat⟩
  have kab : a = b ↔ a.toNat = b.toNat := ⟨fun h => by rw [h], char_eq_of_toNat⟩
  have hle : ∀ x y : Char, x ≤ y ↔ x.toNat ≤ y.toNat := fun x y => Iff.rfl
  rw [key, lowerC_toNat, lowerC_toNat]
  simp only [Spec.sameChar, isAsciiC, Bool.and_eq_true, Bool.or_eq_true, decide_eq_true_eq,
    beq_iff_eq, kab, hle, show 'A'.toNat = 65 from rfl, show 'Z'.toNat = 90 from rfl]
  constructor
  · rintro ⟨⟨h1, h2⟩, h3⟩
    refine ⟨h1, h2, ?_⟩
    (repeat' split) <;> omega
  · rintro ⟨h1, h2, h3⟩
    refine ⟨⟨h1, h2⟩, ?_⟩
    (repeat' split at h3) <;> omega

theorem sameName_iff (s t : Str) :
    Spec.sameName s t = true ↔ isAscii s = true ∧ isAscii t = true ∧ lower s = lower t := by
  induction s generalizing t with
  | nil => cases t <;> simp [Spec.sameName, isAscii, lower]
  | cons a s ih =>
    cases t with
    | nil => simp [Spec.sameName, isAscii, lower]
    | cons b t =>
      simp only [Spec.sameName, Bool.and_eq_true, sameChar_iff, ih]
      simp only [isAscii, List.all_cons, Bool.and_eq_true, lower, List.map_cons,
        List.cons.injEq]
      tauto

theorem spec_ascii_iff (s : Str) : Spec.Ascii s ↔ isAscii s = true := by
  simp [Spec.Ascii, isAscii, isAsciiC]

theorem writeValues_eq (a : HvArg) :
    a.toValues = (match Spec.writeValues a with | some vs => .ok vs | none => .err 500) := by
  cases a with
  | str s =>
    simp only [HvArg.toValues, HeaderValue.fromStr, Spec.writeValues]
    have : (s.all fun c => decide (c.toNat < 128)) = isAscii s := rfl
    rw [this]
    by_cases h : isAscii s = true <;> simp [h]
  | value v => rfl
  | slice vs => rfl
  | values vs =>
    simp only [HvArg.toValues, Spec.writeValues]
    have : ∀ it : Values, it.collect = it.remaining := by
      intro it
      fun_induction Values.collect it with
      | case1 it v it' h ih =>
        have := Values.next_spec it
        rw [h] at this
        simp only at this
        rw [this, ih]
      | case2 it it' h =>
        have := Values.next_spec it
        rw [h] at this
        simp only at this
        rw [this.1]
    rw [this]
    simp [Values.newValues, Values.remaining]

theorem Values.collect_eq (it : Values) : it.collect = it.remaining := by
  fun_induction Values.collect it with
  | case1 it v it' h ih =>
    have := Values.next_spec it
    rw [h] at this
    simp only at this
    rw [this, ih]
  | case2 it it' h =>
    have := Values.next_spec it
    rw [h] at this
    simp only at this
    rw [this.1]

open FMap

theorem HOp.wf_step {m : Headers} (hm : WF m) (op : HOp) : WF (op.step m) := by
  cases op with
  | insert n a =>
    simp only [HOp.step, Headers.insertStr, Headers.insert]
    (repeat' split) <;> first | exact hm | exact wf_set hm _ _
  | append n a =>
    simp only [HOp.step, Headers.appendStr, Headers.append, Headers.insert]
    (repeat' split) <;> first | exact hm | exact wf_set hm _ _
  | remove n =>
    simp only [HOp.step, Headers.removeStr, Headers.remove]
    (repeat' split) <;> first | exact hm | exact wf_erase hm _
  | extend n vs =>
    simp only [HOp.step, Headers.modifyStr, Headers.modify]
    (repeat' split) <;> first | exact hm | exact wf_set hm _ _
  | setAt n i v =>
    simp only [HOp.step, Headers.modifyStr, Headers.modify]
    (repeat' split) <;> first | exact hm | exact wf_set hm _ _
  | drain n o =>
    simp only [HOp.step, Headers.modifyStr, Headers.modify]
    (repeat' split) <;> first | exact hm | exact wf_set hm _ _

/-- One call changes the lookup exactly as the specification says. -/
theorem HOp.get_step {m : Headers} (hm : WF m) (op : HOp) {n : Str} (hn : isAscii n = true)
    (h : List HOp) (ih : Headers.get m (lower n) = Spec.lookup h n) :
    Headers.get (op.step m) (lower n) = Spec.lookup (op :: h) n := by
  have hsame : ∀ k, isAscii k = true → (Spec.sameName k n = decide (lower k = lower n)) := by
    intro k hk
    rw [Bool.eq_iff_iff, sameName_iff]
    simp [hk, hn]
  have hnot : ∀ k, isAscii k = false → Spec.sameName k n = false := by
    intro k hk
    rw [Bool.eq_false_iff, ne_eq, sameName_iff]
    simp [hk]
  cases op with
  | insert k a =>
    simp only [HOp.step, Headers.insertStr, Spec.lookup]
    by_cases hk : isAscii k = true
    · rw [HeaderName.ofStr_ascii hk, hsame k hk]
      simp only [Headers.insert, writeValues_eq]
      cases Spec.writeValues a with
      | none => simp [ih]
      | some vs =>
        simp only [Headers.get, get_set]
        by_cases e : lower k = lower n
        · simp [e]
        · simp only [e, if_false, decide_false]; exact ih
    · simp only [Bool.not_eq_true] at hk
      rw [HeaderName.ofStr_not_ascii hk, hnot k hk]
      exact ih
  | append k a =>
    simp only [HOp.step, Headers.appendStr, Spec.lookup]
    by_cases hk : isAscii k = true
    · rw [HeaderName.ofStr_ascii hk, hsame k hk]
      simp only [Headers.append, Headers.insert, writeValues_eq, HeaderValues.append]
      by_cases e : lower k = lower n
      · rw [e]
        simp only [Headers.get] at ih
        rw [ih]
        cases Spec.writeValues a with
        | none =>
          cases hl : Spec.lookup h n <;> simp [Headers.get, ih, hl]
        | some vs =>
          cases hl : Spec.lookup h n <;> simp [Headers.get, get_set]
      · simp only [e, decide_false]
        cases Spec.writeValues a with
        | none =>
          cases FMap.get m (lower k) <;> simp [ih]
        | some vs =>
          cases FMap.get m (lower k) <;> simp only [Headers.get, get_set, e, if_false] <;> exact ih
    · simp only [Bool.not_eq_true] at hk
      rw [HeaderName.ofStr_not_ascii hk, hnot k hk]
      exact ih
  | remove k =>
    simp only [HOp.step, Headers.removeStr, Spec.lookup]
    by_cases hk : isAscii k = true
    · rw [HeaderName.ofStr_ascii hk, hsame k hk]
      simp only [Headers.remove, Headers.get, get_erase hm]
      by_cases e : lower k = lower n
      · simp [e]
      · simp only [e, if_false, decide_false, Bool.false_eq_true]; exact ih
    · simp only [Bool.not_eq_true] at hk
      rw [HeaderName.ofStr_not_ascii hk, hnot k hk]
      exact ih
  | extend k vs =>
    simp only [HOp.step, Headers.modifyStr, Spec.lookup]
    by_cases hk : isAscii k = true
    · rw [HeaderName.ofStr_ascii hk, hsame k hk]
      simp only [Headers.modify, HeaderValues.append]
      simp only [Headers.get] at ih
      by_cases e : lower k = lower n
      · rw [e, ih]
        cases hl : Spec.lookup h n <;> simp [Headers.get, ih, hl, get_set]
      · cases hg : FMap.get m (lower k) <;> simp [Headers.get, get_set, e, ih]
    · simp only [Bool.not_eq_true] at hk
      rw [HeaderName.ofStr_not_ascii hk, hnot k hk]
      exact ih
  | setAt k i v =>
    simp only [HOp.step, Headers.modifyStr, Spec.lookup]
    by_cases hk : isAscii k = true
    · rw [HeaderName.ofStr_ascii hk, hsame k hk]
      simp only [Headers.modify]
      simp only [Headers.get] at ih
      by_cases e : lower k = lower n
      · rw [e, ih]
        cases hl : Spec.lookup h n <;> simp [Headers.get, ih, hl, get_set]
      · cases hg : FMap.get m (lower k) <;> simp [Headers.get, get_set, e, ih]
    · simp only [Bool.not_eq_true] at hk
      rw [HeaderName.ofStr_not_ascii hk, hnot k hk]
      exact ih
  | drain k o =>
    simp only [HOp.step, Headers.modifyStr, Spec.lookup]
    by_cases hk : isAscii k = true
    · rw [HeaderName.ofStr_ascii hk, hsame k hk]
      simp only [Headers.modify, HeaderValues.append]
      simp only [Headers.get] at ih
      by_cases e : lower k = lower n
      · rw [e, ih]
        cases hl : Spec.lookup h n <;> simp [Headers.get, ih, hl, get_set]
      · cases hg : FMap.get m (lower k) <;> simp [Headers.get, get_set, e, ih]
    · simp only [Bool.not_eq_true] at hk
      rw [HeaderName.ofStr_not_ascii hk, hnot k hk]
      exact ih

theorem HOp.run_append (h : List HOp) (op : HOp) : HOp.run (h ++ [op]) = op.step (HOp.run h) := by
  simp [HOp.run]

theorem HOp.wf_run (h : List HOp) : WF (HOp.run h) := by
  induction h using List.reverseRecOn with
  | nil => simp [HOp.run, Headers.new, WF, keys]
  | append_singleton h op ih => rw [run_append]; exact wf_step ih op

theorem HOp.get_run (h : List HOp) {n : Str} (hn : isAscii n = true) :
    Headers.get (HOp.run h) (lower n) = Spec.lookup h.reverse n := by
  induction h using List.reverseRecOn with
  | nil => rfl
  | append_singleton h op ih =>
    rw [run_append, List.reverse_append]
    exact get_step (wf_run h) op hn _ ih

/-- Membership form of a step: every entry afterwards is an old one or one just written. -/
theorem HOp.forall_step {P : HeaderName → HeaderValues → Prop} {m : Headers} (op : HOp)
    (hm : ∀ k vs, (k, vs) ∈ m → P k vs)
    (hw : ∀ n a vs, (op = .insert n a ∨ op = .append n a) → isAscii n = true →
      Spec.writeValues a = some vs → P (lower n) vs)
    (ha : ∀ n a vs vs', op = .append n a → isAscii n = true → Spec.writeValues a = some vs →
      P (lower n) vs' → P (lower n) (vs' ++ vs))
    (he : ∀ n vs vs', op = .extend n vs → P (lower n) vs' → P (lower n) (vs' ++ vs))
    (hs : ∀ n i v vs', op = .setAt n i v → P (lower n) vs' → P (lower n) (vs'.set i v))
    (hd : ∀ n o vs', op = .drain n o → P (lower n) vs' → P (lower n) []) :
    ∀ k vs, (k, vs) ∈ op.step m → P k vs := by
  have hset : ∀ k vs, P k vs → ∀ k' vs', (k', vs') ∈ FMap.set m k vs → P k' vs' := by
    intro k vs hp k' vs' hmem
    rcases FMap.mem_set hmem with h | h
    · cases h; exact hp
    · exact hm _ _ h
  cases op with
  | insert k a =>
    simp only [HOp.step, Headers.insertStr]
    by_cases hk : isAscii k = true
    · rw [HeaderName.ofStr_ascii hk]
      simp only [Headers.insert, writeValues_eq]
      cases hwv : Spec.writeValues a with
      | none => exact hm
      | some vs => exact hset _ _ (hw k a vs (.inl rfl) hk hwv)
    · simp only [Bool.not_eq_true] at hk
      rw [HeaderName.ofStr_not_ascii hk]; exact hm
  | append k a =>
    simp only [HOp.step, Headers.appendStr]
    by_cases hk : isAscii k = true
    · rw [HeaderName.ofStr_ascii hk]
      simp only [Headers.append, Headers.insert, writeValues_eq, HeaderValues.append]
      cases hwv : Spec.writeValues a with
      | none => cases FMap.get m (lower k) <;> exact hm
      | some vs =>
        cases hg : FMap.get m (lower k) with
        | none => exact hset _ _ (hw k a vs (.inr rfl) hk hwv)
        | some vs' =>
          exact hset _ _ (ha k a vs vs' rfl hk hwv (hm _ _ (FMap.mem_of_get hg)))
    · simp only [Bool.not_eq_true] at hk
      rw [HeaderName.ofStr_not_ascii hk]; exact hm
  | remove k =>
    simp only [HOp.step, Headers.removeStr]
    by_cases hk : isAscii k = true
    · rw [HeaderName.ofStr_ascii hk]
      intro k' vs' h
      exact hm _ _ (FMap.mem_erase h)
    · simp only [Bool.not_eq_true] at hk
      rw [HeaderName.ofStr_not_ascii hk]; exact hm
  | extend k vs =>
    simp only [HOp.step, Headers.modifyStr]
    by_cases hk : isAscii k = true
    · rw [HeaderName.ofStr_ascii hk]
      simp only [Headers.modify, HeaderValues.append]
      cases hg : FMap.get m (lower k) with
      | none => exact hm
      | some vs' => exact hset _ _ (he k vs vs' rfl (hm _ _ (FMap.mem_of_get hg)))
    · simp only [Bool.not_eq_true] at hk
      rw [HeaderName.ofStr_not_ascii hk]; exact hm
  | setAt k i v =>
    simp only [HOp.step, Headers.modifyStr]
    by_cases hk : isAscii k = true
    · rw [HeaderName.ofStr_ascii hk]
      simp only [Headers.modify]
      cases hg : FMap.get m (lower k) with
      | none => exact hm
      | some vs' => exact hset _ _ (hs k i v vs' rfl (hm _ _ (FMap.mem_of_get hg)))
    · simp only [Bool.not_eq_true] at hk
      rw [HeaderName.ofStr_not_ascii hk]; exact hm
  | drain k o =>
    simp only [HOp.step, Headers.modifyStr]
    by_cases hk : isAscii k = true
    · rw [HeaderName.ofStr_ascii hk]
      simp only [Headers.modify, HeaderValues.append]
      cases hg : FMap.get m (lower k) with
      | none => exact hm
      | some vs' => exact hset _ _ (hd k o vs' rfl (hm _ _ (FMap.mem_of_get hg)))
    · simp only [Bool.not_eq_true] at hk
      rw [HeaderName.ofStr_not_ascii hk]; exact hm

end HT
