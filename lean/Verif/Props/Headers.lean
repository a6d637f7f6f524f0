import Verif.Lemmas.Headers

/-! Properties C01–C07: header names and header collections. -/

namespace HT

/-! ## C01 header names -/

/-- Two strings convert to the same header name exactly when both are ASCII and they agree up to
letter case. -/
theorem C01_same_name_iff (s t : Str) :
    (∃ n, HeaderName.ofStr s = .ok n ∧ HeaderName.ofStr t = .ok n) ↔
      Spec.sameName s t = true := by
  rw [sameName_iff]
  constructor
  · rintro ⟨n, h1, h2⟩
    obtain ⟨a1, e1⟩ := HeaderName.ofStr_ok_iff.mp h1
    obtain ⟨a2, e2⟩ := HeaderName.ofStr_ok_iff.mp h2
    exact ⟨a1, a2, by rw [← e1, ← e2]⟩
  · rintro ⟨a1, a2, e⟩
    exact ⟨lower s, HeaderName.ofStr_ascii a1, by rw [e]; exact HeaderName.ofStr_ascii a2⟩

example : ∃ n, HeaderName.ofStr s!!"Content-TYPE" = .ok n ∧ HeaderName.ofStr s!!"content-type" = .ok n :=
  ⟨s!!"content-type", by decide, by decide⟩
example : Spec.sameName s!!"Content-TYPE" s!!"content-type" = true := by decide

/-- All checked constructors agree: they succeed exactly on ASCII input, give a name without
capitals that is the same name as the input, and fail with status 500 otherwise. -/
theorem C01_constructors (s : Str) :
    (Spec.Ascii s → ∃ n, HeaderName.fromStr s = .ok n ∧ HeaderName.fromString s = .ok n ∧
        HeaderName.fromBytes (utf8Encode s) = .ok n ∧ HeaderName.ofStr s = .ok n ∧
        Spec.NoUpper n.asStr ∧ Spec.sameName s n.asStr = true) ∧
    (¬ Spec.Ascii s → HeaderName.fromStr s = .err 500 ∧ HeaderName.fromString s = .err 500 ∧
        HeaderName.fromBytes (utf8Encode s) = .err 500 ∧ HeaderName.ofStr s = .panic) := by
  rw [spec_ascii_iff]
  have hb : HeaderName.fromBytes (utf8Encode s) = HeaderName.fromStr s :=
    HeaderName.fromString_eq s
  constructor
  · intro h
    have h0 : HeaderName.fromStr s = .ok (lower s) := HeaderName.fromStr_ok_iff.mpr ⟨h, rfl⟩
    refine ⟨lower s, h0, by rw [HeaderName.fromString_eq, h0], by rw [hb, h0],
      HeaderName.ofStr_ascii h, ?_, ?_⟩
    · intro c hc
      simp only [HeaderName.asStr, lower, List.mem_map] at hc
      obtain ⟨d, _, rfl⟩ := hc
      have := lowerC_toNat d
      rintro ⟨h1, h2⟩
      have h1' : 65 ≤ (lowerC d).toNat := h1
      have h2' : (lowerC d).toNat ≤ 90 := h2
      rw [this] at h1' h2'
      (repeat' split at h1') <;> (repeat' split at h2') <;> omega
    · rw [sameName_iff]
      exact ⟨h, by simpa [HeaderName.asStr] using h, by simp [HeaderName.asStr]⟩
  · intro h
    have h0 : HeaderName.fromStr s = .err 500 := by
      unfold HeaderName.fromStr; rw [if_neg h]
    exact ⟨h0, by rw [HeaderName.fromString_eq, h0], by rw [hb, h0],
      HeaderName.ofStr_not_ascii (by simpa using h)⟩

example : Spec.Ascii s!!"X-Forwarded-For" := by decide
example : ¬ Spec.Ascii s!!"naïve" := by decide

/-- Constructing from arbitrary bytes succeeds exactly when every byte is below 128, and then the
name is that of the characters with those codes. -/
theorem C01_from_bytes (bs : List Byte) :
    HeaderName.fromBytes bs =
      if (∀ b ∈ bs, b.val < 128) then HeaderName.fromStr (bs.map fun b => Char.ofNat b.val)
      else .err 500 := by
  by_cases h : ∀ b ∈ bs, b.val < 128
  · rw [if_pos h]
    have hs : isAscii (bs.map fun b => Char.ofNat b.val) = true := by
      simp only [isAscii, List.all_map, List.all_eq_true, Function.comp, isAsciiC,
        decide_eq_true_eq]
      intro b hb
      rw [toNat_ofNat (by have := h b hb; omega)]; exact h b hb
    rw [← HeaderName.fromString_eq, HeaderName.fromString, utf8Encode_ascii hs, List.map_map]
    congr 1
    symm
    conv_rhs => rw [← List.map_id bs]
    apply List.map_congr_left
    intro b hb
    simp only [Function.comp, id]
    rw [toNat_ofNat (by have := h b hb; omega), byte_val_self]
  · rw [if_neg h]
    unfold HeaderName.fromBytes
    rw [if_neg]
    simpa using h

example : HeaderName.fromBytes [byte 65, byte 45, byte 98] = .ok s!!"a-b" := by decide

/-- A printed name constructs the same name again. -/
theorem C01_print_stable (s n : Str) (h : HeaderName.fromStr s = .ok n) :
    HeaderName.fromStr (HeaderName.asStr n) = .ok n := by
  obtain ⟨h1, rfl⟩ := HeaderName.fromStr_ok_iff.mp h
  exact HeaderName.fromStr_ok_iff.mpr ⟨by simpa [HeaderName.asStr] using h1, by simp [HeaderName.asStr]⟩

example : HeaderName.fromStr s!!"Host" = .ok s!!"host" := by decide

/-- Comparing a name with a string is case-insensitive name equality; non-ASCII never matches. -/
theorem C01_eq_str_iff (s t n : Str) (h : HeaderName.fromStr s = .ok n) :
    HeaderName.eqStr n t = true ↔ Spec.sameName s t = true := by
  obtain ⟨h1, rfl⟩ := HeaderName.fromStr_ok_iff.mp h
  rw [sameName_iff]
  unfold HeaderName.eqStr HeaderName.fromStr
  by_cases ht : isAscii t = true
  · rw [if_pos ht]; simp [h1, ht]
  · rw [if_neg ht]; simp [ht]

example : HeaderName.eqStr s!!"host" s!!"hOST" = true := by decide

/-! ## C02 a header collection is a map -/

/-- After any history, looking up a name gives exactly what the history says about it. -/
theorem C02_get_run (h : List HOp) (n : Str) :
    (HOp.run h).getStr n =
      if Spec.Ascii n then .ok (Spec.lookup h.reverse n) else .panic := by
  by_cases hn : isAscii n = true
  · rw [if_pos ((spec_ascii_iff n).mpr hn)]
    simp only [Headers.getStr, HeaderName.ofStr_ascii hn, Res.map_ok]
    rw [HOp.get_run h hn]
  · rw [if_neg (fun hh => hn ((spec_ascii_iff n).mp hh))]
    simp only [Bool.not_eq_true] at hn
    simp [Headers.getStr, HeaderName.ofStr_not_ascii hn]

example : (HOp.run [.insert s!!"A" (.str s!!"1"), .append s!!"a" (.str s!!"2"),
      .insert s!!"b" (.str s!!"3"), .remove s!!"B"]).getStr s!!"a"
    = .ok (some [s!!"1", s!!"2"]) := by decide

/-- Insert and remove return the list stored before the call. -/
theorem C02_returns_previous (h : List HOp) (n : Str) (hn : Spec.Ascii n) (a : HvArg) :
    (∀ vs, Spec.writeValues a = some vs →
      ((HOp.run h).insertStr n a).2 = .ok (Spec.lookup h.reverse n)) ∧
    ((HOp.run h).removeStr n).2 = .ok (Spec.lookup h.reverse n) := by
  have hn' := (spec_ascii_iff n).mp hn
  constructor
  · intro vs hv
    simp only [Headers.insertStr, HeaderName.ofStr_ascii hn', Headers.insert, writeValues_eq, hv]
    rw [← HOp.get_run h hn']; rfl
  · simp only [Headers.removeStr, HeaderName.ofStr_ascii hn', Headers.remove]
    rw [← HOp.get_run h hn']; rfl

example : ((HOp.run [.insert s!!"A" (.str s!!"1")]).removeStr s!!"a").2 = .ok (some [s!!"1"]) := by
  decide

/-- The declarative reading: the values of the last insert, then everything appended since. -/
theorem C02_insert_then_appends (h1 h2 : List HOp) (n k : Str) (a : HvArg) (vs : List Str)
    (hk : Spec.sameName k n = true) (ha : Spec.writeValues a = some vs)
    (h2k : ∀ op ∈ h2, Spec.keeps n op = true) :
    (HOp.run (h1 ++ [.insert k a] ++ h2)).getStr n =
      .ok (some (vs ++ (h2.map (Spec.appended n)).flatten)) := by
  have hn : isAscii n = true := ((sameName_iff _ _).mp hk).2.1
  rw [C02_get_run, if_pos ((spec_ascii_iff n).mpr hn)]
  congr 1
  induction h2 using List.reverseRecOn with
  | nil => simp [Spec.lookup, hk, ha]
  | append_singleton h2 op ih =>
    have ih := ih (fun o ho => h2k o (by simp [ho]))
    have hop := h2k op (by simp)
    rw [← List.append_assoc, List.reverse_append, List.reverse_singleton, List.singleton_append]
    cases op with
    | insert k' a' =>
      simp only [Spec.keeps, Spec.opName, Bool.not_eq_true'] at hop
      simpa [Spec.lookup, hop, Spec.appended] using ih
    | append k' a' =>
      simp only [Spec.lookup, ih, List.map_append, List.flatten_append, List.map_cons,
        List.map_nil, List.flatten_cons, List.flatten_nil, List.append_nil, Spec.appended]
      cases Spec.sameName k' n <;> cases Spec.writeValues a' <;> simp
    | remove k' =>
      simp only [Spec.keeps, Spec.opName, Bool.not_eq_true'] at hop
      simpa [Spec.lookup, hop, Spec.appended] using ih
    | extend k' vs' =>
      simp only [Spec.lookup, ih, List.map_append, List.flatten_append, List.map_cons,
        List.map_nil, List.flatten_cons, List.flatten_nil, List.append_nil, Spec.appended]
      cases Spec.sameName k' n <;> simp
    | setAt k' i v =>
      simp only [Spec.keeps, Spec.opName, Bool.not_eq_true'] at hop
      simpa [Spec.lookup, hop, Spec.appended] using ih
    | drain k' o =>
      simp only [Spec.keeps, Spec.opName, Bool.not_eq_true'] at hop
      simpa [Spec.lookup, hop, Spec.appended] using ih

example : (HOp.run ([.insert s!!"x" (.str s!!"old")] ++ [.insert s!!"X" (.str s!!"new")] ++
      [.append s!!"x" (.slice [s!!"p", s!!"q"]), .remove s!!"y"])).getStr s!!"x"
    = .ok (some [s!!"new", s!!"p", s!!"q"]) := by
  decide

/-- Calls about other names change nothing; a name never mentioned is absent. -/
theorem C02_frame (h1 h2 : List HOp) (n : Str) (hn : Spec.Ascii n)
    (ho : ∀ op ∈ h2, Spec.sameName (Spec.opName op) n = false) :
    (HOp.run (h1 ++ h2)).getStr n = (HOp.run h1).getStr n ∧
    (HOp.run h2).getStr n = .ok none := by
  have key : ∀ base, Spec.lookup (h2.reverse ++ base) n = Spec.lookup base n := by
    intro base
    have ho' : ∀ op ∈ h2.reverse, Spec.sameName (Spec.opName op) n = false := by simpa using ho
    generalize h2.reverse = l at ho'
    induction l with
    | nil => rfl
    | cons op l ih =>
      have := ho' op (by simp)
      have ih := ih (fun o h => ho' o (by simp [h]))
      cases op <;> simp only [Spec.opName] at this <;> simp [Spec.lookup, this, ih]
  simp only [C02_get_run, if_pos hn, List.reverse_append]
  constructor
  · rw [key]
  · have := key []
    rw [List.append_nil] at this
    rw [this]; rfl

example : (HOp.run ([.insert s!!"a" (.str s!!"1")] ++ [.insert s!!"b" (.str s!!"2")])).getStr s!!"a"
    = .ok (some [s!!"1"]) := by decide

/-! ## C03 rejected writes -/

/-- A write to an ASCII name fails exactly when its value is a non-ASCII string; it then fails with
status 500 and the collection is unchanged. Otherwise it succeeds. -/
theorem C03_rejected_write (m : Headers) (n : Str) (hn : Spec.Ascii n) (a : HvArg) :
    ((∃ s, a = .str s ∧ ¬ Spec.Ascii s) →
      m.insertStr n a = (m, .err 500) ∧ m.appendStr n a = (m, .err 500)) ∧
    ((¬ ∃ s, a = .str s ∧ ¬ Spec.Ascii s) →
      (∃ o, (m.insertStr n a).2 = .ok o) ∧ (m.appendStr n a).2 = .ok ()) := by
  have hn' := (spec_ascii_iff n).mp hn
  constructor
  · rintro ⟨s, rfl, hs⟩
    have : HvArg.toValues (.str s) = .err 500 := by
      rw [spec_ascii_iff] at hs
      simp [HvArg.toValues, HeaderValue.fromStr, hs]
    constructor
    · simp [Headers.insertStr, HeaderName.ofStr_ascii hn', Headers.insert, this]
    · simp only [Headers.appendStr, HeaderName.ofStr_ascii hn', Headers.append, Headers.insert, this]
      cases FMap.get m (lower n) <;> rfl
  · intro hne
    have : ∃ vs, a.toValues = .ok vs := by
      cases a with
      | str s =>
        have hs : Spec.Ascii s := by
          by_contra hc; exact hne ⟨s, rfl, hc⟩
        rw [spec_ascii_iff] at hs
        exact ⟨[s], by simp [HvArg.toValues, HeaderValue.fromStr, hs]⟩
      | value v => exact ⟨_, rfl⟩
      | slice vs => exact ⟨_, rfl⟩
      | values vs => exact ⟨_, rfl⟩
    obtain ⟨vs, hv⟩ := this
    constructor
    · exact ⟨_, by simp [Headers.insertStr, HeaderName.ofStr_ascii hn', Headers.insert, hv]; rfl⟩
    · simp only [Headers.appendStr, HeaderName.ofStr_ascii hn', Headers.append, Headers.insert, hv]
      cases FMap.get m (lower n) <;> rfl

example : Headers.appendStr [(s!!"a", [s!!"1"])] s!!"A" (.str s!!"é") =
    ([(s!!"a", [s!!"1"])], .err 500) := by decide

/-- A write to a non-ASCII name panics and leaves the collection unchanged. -/
theorem C03_bad_name (m : Headers) (n : Str) (hn : ¬ Spec.Ascii n) (a : HvArg) :
    m.insertStr n a = (m, .panic) ∧ m.appendStr n a = (m, .panic) ∧ m.removeStr n = (m, .panic) := by
  have hn' : isAscii n = false := by
    rw [spec_ascii_iff] at hn; simpa using hn
  simp [Headers.insertStr, Headers.appendStr, Headers.removeStr, HeaderName.ofStr_not_ascii hn']

example : ¬ Spec.Ascii s!!"é" := by decide

/-! ## C04 stored data is ASCII -/

/-- After any history whose header values come from the checked constructors, every stored name is
lowercase ASCII and every stored value is ASCII. (Values made from a media type are not checked:
see `C04_violated_mime`.) -/
theorem C04_stored_ascii_partial (h : List HOp) (hc : ∀ op ∈ h, Spec.CheckedOp op) :
    ∀ k vs, (k, vs) ∈ HOp.run h →
      Spec.Ascii k ∧ Spec.NoUpper k ∧ ∀ v ∈ vs, Spec.Ascii v := by
  have hchk : ∀ v bs, HeaderValue.fromBytes bs = .ok v → Spec.Ascii v := by
    intro v bs hb
    unfold HeaderValue.fromBytes at hb
    split at hb
    · rename_i hall
      cases hb
      intro c hc
      simp only [List.mem_map] at hc
      obtain ⟨b, hb, rfl⟩ := hc
      have := List.all_eq_true.mp hall b hb
      simp at this
      rw [toNat_ofNat (by omega)]; exact this
    · cases hb
  have harg : ∀ a vs, Spec.CheckedArg a → Spec.writeValues a = some vs →
      ∀ v ∈ vs, Spec.Ascii v := by
    intro a vs hca hw v hv
    cases a with
    | str s =>
      simp only [Spec.writeValues] at hw
      split at hw
      · cases hw
        simp at hv; subst hv
        rename_i hs
        simpa [Spec.Ascii] using hs
      · cases hw
    | value w =>
      cases hw; simp at hv; subst hv
      obtain ⟨bs, hb⟩ := hca; exact hchk _ bs hb
    | slice ws => cases hw; obtain ⟨bs, hb⟩ := hca v hv; exact hchk _ bs hb
    | values ws => cases hw; obtain ⟨bs, hb⟩ := hca v hv; exact hchk _ bs hb
  have hkey : ∀ n, isAscii n = true → Spec.Ascii (lower n) ∧ Spec.NoUpper (lower n) := by
    intro n hn
    obtain ⟨m, h1, _, _, _, h5, h6⟩ := (C01_constructors n).1 ((spec_ascii_iff n).mpr hn)
    obtain ⟨_, rfl⟩ := HeaderName.fromStr_ok_iff.mp h1
    exact ⟨(spec_ascii_iff _).mpr ((sameName_iff _ _).mp h6).2.1, h5⟩
  induction h using List.reverseRecOn with
  | nil => intro k vs hm; simp [HOp.run, Headers.new] at hm
  | append_singleton h op ih =>
    have ih := ih (fun o ho => hc o (by simp [ho]))
    have hop := hc op (by simp)
    rw [HOp.run_append]
    refine HOp.forall_step op ih ?_ ?_ ?_ ?_ (fun n o vs' _ hp => ⟨hp.1, hp.2.1, fun v hv => by cases hv⟩)
    · intro n a vs ho hn hw
      refine ⟨(hkey n hn).1, (hkey n hn).2, harg a vs ?_ hw⟩
      rcases ho with rfl | rfl <;> exact hop
    · intro n a vs vs' ho hn hw hp
      subst ho
      refine ⟨hp.1, hp.2.1, ?_⟩
      intro v hv
      rcases List.mem_append.mp hv with hv | hv
      · exact hp.2.2 v hv
      · exact harg a vs hop hw v hv
    · intro n vs vs' ho hp
      subst ho
      refine ⟨hp.1, hp.2.1, ?_⟩
      intro v hv
      rcases List.mem_append.mp hv with hv | hv
      · exact hp.2.2 v hv
      · obtain ⟨bs, hb⟩ := hop v hv; exact hchk _ bs hb
    · intro n i v vs' ho hp
      subst ho
      refine ⟨hp.1, hp.2.1, ?_⟩
      intro w hw
      rcases List.mem_or_eq_of_mem_set hw with hw | rfl
      · exact hp.2.2 w hw
      · obtain ⟨bs, hb⟩ := hop; exact hchk _ bs hb

example : ∀ op ∈ ([.insert s!!"Host" (.str s!!"a"), .append s!!"é" (.str s!!"é"),
    .append s!!"host" (.value s!!"b")] : List HOp), Spec.CheckedOp op := by
  intro op hop
  simp at hop
  rcases hop with rfl | rfl | rfl
  · trivial
  · trivial
  · exact ⟨[byte 98], by decide⟩

/-! ## C05 a present header has a value -/

/-- Violated: inserting an empty slice stores an empty list, and the accessors then panic. -/
theorem C05_violated_empty_slice :
    (HOp.run [.insert s!!"a" (.slice [])]).getStr s!!"a" = .ok (some []) ∧
    HeaderValues.first [] = .panic ∧ HeaderValues.last [] = .panic ∧
    HeaderValues.intoValue [] = .panic := by
  decide

/-- Violated: moving the values of a stored header to another list leaves it present without values. -/
theorem C05_violated_moved (h : List HOp) (n : Str) (hn : Spec.Ascii n) (other : HeaderValues)
    (hp : (HOp.run h).getStr n ≠ .ok none) :
    (HOp.run (h ++ [.drain n other])).getStr n = .ok (some []) := by
  rw [C02_get_run, if_pos hn] at *
  have hs : Spec.sameName n n = true := by
    rw [sameName_iff]; exact ⟨(spec_ascii_iff n).mp hn, (spec_ascii_iff n).mp hn, rfl⟩
  simp only [List.reverse_append, List.reverse_singleton, List.singleton_append, Spec.lookup, hs, if_true]
  cases hl : Spec.lookup h.reverse n with
  | none => rw [hl] at hp; exact absurd rfl hp
  | some vs => rfl

example : (HOp.run [.insert s!!"a" (.str s!!"1"), .drain s!!"A" [s!!"0"]]).getStr s!!"a" = .ok (some []) := by
  decide

/-- If no write carries an empty list and no values are moved away, every present header has at least one value, so its first
and last value can be read. -/
theorem C05_nonempty_partial (h : List HOp) (hne : ∀ op ∈ h, Spec.NonemptyOp op) :
    ∀ k vs, Headers.get (HOp.run h) k = some vs →
      vs ≠ [] ∧ (∃ v rest, vs = v :: rest ∧ HeaderValues.first vs = .ok v ∧
        HeaderValues.intoValue vs = .ok v) ∧
      (∃ v rest, vs = rest ++ [v] ∧ HeaderValues.last vs = .ok v) := by
  have inv : ∀ k vs, (k, vs) ∈ HOp.run h → vs ≠ [] := by
    induction h using List.reverseRecOn with
    | nil => intro k vs hm; simp [HOp.run, Headers.new] at hm
    | append_singleton h op ih =>
      have ih := ih (fun o ho => hne o (by simp [ho]))
      have hop := hne op (by simp)
      have harg : ∀ a vs, Spec.NonemptyArg a → Spec.writeValues a = some vs → vs ≠ [] := by
        intro a vs ha hw
        cases a with
        | str s =>
          simp only [Spec.writeValues] at hw
          split at hw <;> cases hw
          simp
        | value w => cases hw; simp
        | slice ws => cases hw; exact ha
        | values ws => cases hw; exact ha
      rw [HOp.run_append]
      refine HOp.forall_step (P := fun _ vs => vs ≠ []) op ih ?_ ?_ ?_ ?_ (fun n o vs' ho _ => by subst ho; exact hop.elim)
      · intro n a vs ho hn hw
        refine harg a vs ?_ hw
        rcases ho with rfl | rfl <;> exact hop
      · intro n a vs vs' _ _ _ hp
        simp [hp]
      · intro n vs vs' _ hp
        simp [hp]
      · intro n i v vs' _ hp
        simpa using hp
  intro k vs hg
  have hvs := inv k vs (FMap.mem_of_get hg)
  refine ⟨hvs, ?_, ?_⟩
  · cases vs with
    | nil => exact absurd rfl hvs
    | cons v rest =>
      exact ⟨v, rest, rfl, rfl, by simp [HeaderValues.intoValue]⟩
  · refine ⟨vs.getLast hvs, vs.dropLast, (List.dropLast_append_getLast hvs).symm, ?_⟩
    simp [HeaderValues.last, List.getLast?_eq_some_getLast hvs]

example : ∀ op ∈ ([.insert s!!"a" (.slice [s!!"1", s!!"2"]), .remove s!!"b"] : List HOp),
    Spec.NonemptyOp op := by
  intro op hop
  simp at hop
  rcases hop with rfl | rfl
  · show _ ≠ _; simp
  · trivial

/-! ## C06 iterating values -/

/-- Whatever the visiting order, iterating over all values yields the list of each present name,
name by name, once each. -/
theorem C06_values (h : List HOp) (m : Headers) (hp : (HOp.run h).Perm m) :
    (Headers.values m).collect =
      ((FMap.keys m).map fun n => (Headers.get (HOp.run h) n).getD []).flatten ∧
    (FMap.keys m).Nodup ∧
    (∀ n, n ∈ FMap.keys m ↔ (Headers.get (HOp.run h) n).isSome) := by
  have hwf := HOp.wf_run h
  have hwf' := hwf.perm hp
  refine ⟨?_, hwf', ?_⟩
  · rw [Values.collect_eq]
    simp only [Headers.values, Values.new, Values.remaining, List.nil_append, Option.getD_some,
      FMap.vals, FMap.keys, List.map_map]
    congr 1
    apply List.map_congr_left
    rintro ⟨k, v⟩ hkv
    simp only [Function.comp]
    have := (FMap.get_eq_some_iff hwf' k v).mpr hkv
    rw [FMap.get_perm hwf hp] at this
    simp [Headers.get, this]
  · intro n
    rw [← FMap.get_isSome_iff, FMap.get_perm hwf hp]; rfl

example : (Headers.values (HOp.run [.insert s!!"a" (.slice [s!!"1", s!!"2"]), .insert s!!"b" (.str s!!"3")])).collect
    = [s!!"1", s!!"2", s!!"3"] := by
  rw [Values.collect_eq]; decide

/-- Iterating one header's list yields exactly that list. -/
theorem C06_header_values (vs : HeaderValues) : (Values.newValues vs).collect = vs := by
  rw [Values.collect_eq]; simp [Values.newValues, Values.remaining]

example : (Values.newValues [s!!"a", s!!"b"]).collect = [s!!"a", s!!"b"] := by decide +kernel

/-- Each call of `next` yields the first value not yet visited, and at the end `none`, repeatedly. -/
theorem C06_next (it : Values) :
    match it.collect with
    | [] => it.next.1 = none ∧ it.next.2.next.1 = none
    | v :: rest => it.next.1 = some v ∧ it.next.2.collect = rest := by
  have hs := Values.next_spec it
  rw [Values.collect_eq]
  rcases hn : it.next with ⟨o, it'⟩
  rw [hn] at hs
  cases o with
  | none =>
    simp only at hs
    rw [hs.1]
    have h2 := Values.next_spec it'
    rcases hn2 : it'.next with ⟨o2, it2⟩
    rw [hn2] at h2
    cases o2 with
    | none => exact ⟨rfl, by simp only⟩
    | some w => simp [hs.2] at h2
  | some v =>
    simp only at hs
    rw [hs]
    exact ⟨rfl, Values.collect_eq it'⟩

example : (Values.newValues [s!!"a", s!!"b"]).next.1 = some s!!"a" ∧ (Values.newValues [s!!"a", s!!"b"]).next.2.next.1 = some s!!"b" := by
  decide +kernel

/-- Violated: the advertised upper bound counts names, not values. -/
theorem C06_violated_size_hint :
    (Headers.values (HOp.run [.insert s!!"a" (.slice [s!!"1", s!!"2"])])).sizeHint = (1, some 1) ∧
    (Headers.values (HOp.run [.insert s!!"a" (.slice [s!!"1", s!!"2"])])).collect.length = 2 := by
  constructor
  · decide
  · rw [Values.collect_eq]; decide

/-- The size hint of the collection iterator is right when every header has exactly one value. -/
theorem C06_size_hint_partial (m : Headers) (h1 : ∀ k vs, (k, vs) ∈ m → vs.length = 1) :
    (Headers.values m).sizeHint =
      ((Headers.values m).collect.length, some (Headers.values m).collect.length) := by
  have : (Headers.values m).collect.length = m.length := by
    rw [Values.collect_eq]
    simp only [Headers.values, Values.new, Values.remaining, List.nil_append, Option.getD_some,
      FMap.vals, List.length_flatten, List.map_map]
    induction m with
    | nil => rfl
    | cons e m ih =>
      obtain ⟨k, vs⟩ := e
      have hv := h1 k vs (by simp)
      rw [List.map_cons, List.sum_cons, ih (fun k vs h => h1 k vs (by simp [h]))]
      simp [Function.comp, hv]; omega
  rw [this]
  simp [Headers.values, Values.new, Values.sizeHint, FMap.vals]

example : ∀ k vs, (k, vs) ∈ HOp.run [.insert s!!"a" (.str s!!"1"), .insert s!!"b" (.str s!!"2")] →
    vs.length = 1 := by
  intro k vs h
  have : HOp.run [.insert s!!"a" (.str s!!"1"), .insert s!!"b" (.str s!!"2")]
      = [(s!!"a", [s!!"1"]), (s!!"b", [s!!"2"])] := by decide
  rw [this] at h
  simp at h
  rcases h with ⟨_, rfl⟩ | ⟨_, rfl⟩ <;> rfl

/-- The size hint of one header's iterator is always a correct (trivial) bound. -/
theorem C06_size_hint_header_values (vs : HeaderValues) :
    (Values.newValues vs).sizeHint.1 ≤ (Values.newValues vs).collect.length ∧
    ∀ u, (Values.newValues vs).sizeHint.2 = some u → (Values.newValues vs).collect.length ≤ u := by
  simp [Values.newValues, Values.sizeHint]

example : (Values.newValues [s!!"a", s!!"b"]).sizeHint.1 ≤ 2 := by decide

/-! ## C07 indexing and comparing -/

/-- `headers["name"]` gives what `get` gives, and panics exactly when the name is absent or not
ASCII. -/
theorem C07_index_str (m : Headers) (s : Str) :
    (∀ vs, m.indexStr s = .ok vs ↔ m.getStr s = .ok (some vs)) ∧
    (m.indexStr s = .panic ↔ (¬ Spec.Ascii s ∨ m.getStr s = .ok none)) ∧
    (∀ e, m.indexStr s ≠ .err e) := by
  rw [spec_ascii_iff]
  by_cases h : isAscii s = true
  · have h1 : HeaderName.fromStr s = .ok (lower s) := HeaderName.fromStr_ok_iff.mpr ⟨h, rfl⟩
    have h2 := HeaderName.ofStr_ascii h
    simp only [Headers.indexStr, h1, Headers.getStr, h2, Res.map_ok, Res.ok.injEq, h]
    cases Headers.get m (lower s) <;> simp
  · have h2 : HeaderName.ofStr s = .panic := HeaderName.ofStr_not_ascii (by simpa using h)
    have h1 : HeaderName.fromStr s = .err 500 := by unfold HeaderName.fromStr; rw [if_neg h]
    simp [Headers.indexStr, h1, Headers.getStr, h2, h]

example : Headers.indexStr [(s!!"a", [s!!"1"])] s!!"A" = .ok [s!!"1"] := by decide
example : Headers.indexStr [(s!!"a", [s!!"1"])] s!!"b" = .panic := by decide

/-- The same for a header name. -/
theorem C07_index_name (m : Headers) (n : HeaderName) :
    m.index n = match m.get n with | some vs => .ok vs | none => .panic := by
  unfold Headers.index; cases m.get n <;> rfl

example : Headers.index [(s!!"a", [s!!"1", s!!"2"])] s!!"a" = .ok [s!!"1", s!!"2"] ∧ Headers.index [(s!!"a", [s!!"1"])] s!!"b" = .panic := by
  decide

/-- A value list equals a string exactly when it holds that single value. -/
theorem C07_eq_str (vs : HeaderValues) (s : Str) : HeaderValues.eqStr vs s = true ↔ vs = [s] := by
  unfold HeaderValues.eqStr
  match vs with
  | [] => simp
  | [v] => simp
  | v :: w :: r => simp

example : HeaderValues.eqStr [s!!"a"] s!!"a" = true ∧ HeaderValues.eqStr [s!!"a", s!!"a"] s!!"a" = false := by decide

/-- A value list equals a slice exactly when they agree element by element. -/
theorem C07_eq_slice (vs : HeaderValues) (ss : List Str) :
    HeaderValues.eqSlice vs ss = true ↔ vs = ss := by
  unfold HeaderValues.eqSlice
  induction vs generalizing ss with
  | nil => cases ss <;> simp [HeaderValues.iterEq]
  | cons v vs ih =>
    cases ss with
    | nil => simp [HeaderValues.iterEq]
    | cons s ss => simp [HeaderValues.iterEq, ih]

example : HeaderValues.eqSlice [s!!"a", s!!"b"] [s!!"a", s!!"b"] = true ∧ HeaderValues.eqSlice [s!!"a", s!!"b"] [s!!"b", s!!"a"] = false := by
  decide

/-- `contains` is membership, `get(i)` is the i-th value, and `values[i]` panics exactly when `i` is
past the end. -/
theorem C07_contains_get (vs : HeaderValues) (v : HeaderValue) (i : Nat) :
    (HeaderValues.contains vs v = true ↔ v ∈ vs) ∧
    (HeaderValues.get vs i = some v ↔ ∃ h : i < vs.length, vs[i] = v) ∧
    (HeaderValues.index vs i = .panic ↔ vs.length ≤ i) ∧
    (HeaderValues.index vs i = .ok v ↔ HeaderValues.get vs i = some v) := by
  refine ⟨by simp [HeaderValues.contains], List.getElem?_eq_some_iff, ?_, ?_⟩
  · unfold HeaderValues.index
    rcases Nat.lt_or_ge i vs.length with h | h
    · simp [List.getElem?_eq_getElem h]; exact h
    · simp [List.getElem?_eq_none h]; exact h
  · unfold HeaderValues.index HeaderValues.get
    cases vs[i]? <;> simp

example : HeaderValues.get [s!!"a", s!!"b"] 1 = some s!!"b" ∧ HeaderValues.index [s!!"a", s!!"b"] 2 = .panic := by decide

end HT
