import Verif.Spec.Tables
import Verif.Lemmas.Headers
import Verif.Lemmas.Num
import Verif.Model.Error

/-! Properties C17–C21: methods, status codes, versions, the `Status` trait. -/

namespace HT

/-! ## C17 methods -/

theorem Method.mem_all (m : Method) : m ∈ Method.all := by cases m <;> decide

theorem Method.firstArm_mem {s : Str} {t : List (Str × Method)} {m : Method}
    (h : Method.firstArm s t = some m) : (s, m) ∈ t := by
  induction t with
  | nil => simp [Method.firstArm] at h
  | cons e t ih =>
    obtain ⟨k, m'⟩ := e
    simp only [Method.firstArm] at h
    split at h
    · rename_i he; cases h; simp [he]
    · exact List.mem_cons_of_mem _ (ih h)

theorem Method.fromStr_ok_iff (s : Str) (m : Method) :
    Method.fromStr s = .ok m ↔ upper s = m.asStr := by
  have htab : ∀ e ∈ Method.parseTable, e.2.asStr = e.1 := by decide
  have hall : ∀ m ∈ Method.all, Method.firstArm m.asStr Method.parseTable = some m := by decide
  unfold Method.fromStr
  constructor
  · intro h
    cases hf : Method.firstArm (upper s) Method.parseTable with
    | none => rw [hf] at h; cases h
    | some m' =>
      rw [hf] at h; cases h
      exact (htab _ (Method.firstArm_mem hf)).symm
  · intro h
    rw [h, hall m m.mem_all]

/-- Parsing gives `m` exactly when the text is `m`'s printed name up to ASCII case; every other text
fails with status 500. -/
theorem C17_parse_iff (s : Str) (m : Method) :
    (Method.fromStr s = .ok m ↔ Spec.sameName s m.asStr = true) ∧
    ((∀ m, Spec.sameName s (Method.asStr m) = false) → Method.fromStr s = .err 500) := by
  have hasc : ∀ m ∈ Method.all, isAscii m.asStr = true ∧ upper m.asStr = m.asStr := by decide
  have key : ∀ m : Method, Method.fromStr s = .ok m ↔ Spec.sameName s m.asStr = true := by
    intro m
    obtain ⟨h1, h2⟩ := hasc m m.mem_all
    rw [Method.fromStr_ok_iff, sameName_iff]
    constructor
    · intro h
      refine ⟨?_, h1, ?_⟩
      · rw [← isAscii_upper, h]; exact h1
      · rw [← upper_eq_iff_lower_eq, h, h2]
    · rintro ⟨_, _, h⟩
      rw [← h2, upper_eq_iff_lower_eq, h]
  refine ⟨key m, ?_⟩
  intro hn
  cases hf : Method.fromStr s with
  | ok m' => have := (key m').mp hf; rw [hn m'] at this; cases this
  | err e =>
    unfold Method.fromStr at hf
    split at hf <;> cases hf
    rfl
  | panic => unfold Method.fromStr at hf; split at hf <;> cases hf

example : Method.fromStr s!!"gEt" = .ok .get := by decide
example : Spec.sameName s!!"gEt" (Method.asStr .get) = true := by decide

/-- Printing then parsing is the identity, and distinct methods print differently. -/
theorem C17_round_trip (m m' : Method) :
    Method.fromStr m.asStr = .ok m ∧ (m.asStr = m'.asStr → m = m') := by
  have h : ∀ m : Method, Method.fromStr m.asStr = .ok m := by
    have hall : ∀ m ∈ Method.all, Method.fromStr m.asStr = .ok m := by decide
    exact fun m => hall m m.mem_all
  refine ⟨h m, ?_⟩
  intro he
  have h1 := h m
  rw [he, h m'] at h1
  cases h1; rfl

example : Method.fromStr s!!"BASELINE-CONTROL" = .ok .baselineControl ∧ Method.baselineControl.asStr = s!!"BASELINE-CONTROL" := by decide

/-- The printed names are exactly the registered ones, and the safe methods are exactly those whose
name is registered as safe. -/
theorem C17_registry :
    (∀ n, n ∈ Spec.methodNames ↔ ∃ m : Method, m.asStr = n) ∧
    (∀ m : Method, m.isSafe = true ↔ m.asStr ∈ Spec.safeNames) := by
  constructor
  · intro n
    have h1 : ∀ n ∈ Spec.methodNames, ∃ m ∈ Method.all, m.asStr = n := by decide
    have h2 : ∀ m ∈ Method.all, m.asStr ∈ Spec.methodNames := by decide
    constructor
    · intro h; obtain ⟨m, _, hm⟩ := h1 n h; exact ⟨m, hm⟩
    · rintro ⟨m, rfl⟩; exact h2 m m.mem_all
  · intro m
    have h : ∀ m ∈ Method.all, (m.isSafe = true ↔ m.asStr ∈ Spec.safeNames) := by decide
    exact h m m.mem_all

example : Method.isSafe .search = true ∧ Method.isSafe .post = false := by decide

/-! ## C18 status codes -/

theorem StatusCode.mem_all (c : StatusCode) : c ∈ StatusCode.all := by cases c <;> decide

theorem StatusCode.tryFrom_iff (n : Nat) (c : StatusCode) :
    StatusCode.tryFrom n = some c ↔ c.toNat = n := by
  constructor
  · intro h
    unfold StatusCode.tryFrom at h
    split at h <;> first | (cases h; rfl) | cases h
  · rintro rfl
    have : ∀ c ∈ StatusCode.all, StatusCode.tryFrom c.toNat = some c := by decide
    exact this c c.mem_all

/-- A number converts to a status exactly when it is supported, and then converts back to itself. -/
theorem C18_convert (n : Nat) :
    (Spec.statusNumber n = true ↔ ∃ c, StatusCode.tryFrom n = some c) ∧
    (∀ c, StatusCode.tryFrom n = some c ↔ c.toNat = n) ∧
    (∀ c, StatusCode.eqU16 c n = true ↔ StatusCode.tryFrom n = some c) := by
  refine ⟨?_, StatusCode.tryFrom_iff n, ?_⟩
  · constructor
    · intro h
      have hlt : n < 512 := by
        unfold Spec.statusNumber at h
        simp only [Bool.or_eq_true, Bool.and_eq_true, beq_iff_eq, decide_eq_true_eq] at h
        omega
      have : ∀ n < 512, Spec.statusNumber n = true → (StatusCode.tryFrom n).isSome = true := by
        decide +kernel
      exact Option.isSome_iff_exists.mp (this n hlt h)
    · rintro ⟨c, hc⟩
      rw [StatusCode.tryFrom_iff] at hc
      subst hc
      have : ∀ c ∈ StatusCode.all, Spec.statusNumber c.toNat = true := by decide
      exact this c c.mem_all
  · intro c
    rw [StatusCode.tryFrom_iff]
    simp [StatusCode.eqU16]

example : StatusCode.tryFrom 404 = some .notFound := by decide
example : StatusCode.tryFrom 299 = none := by decide

/-- Distinct statuses have distinct numbers, and each is in exactly the class of its hundreds
digit. -/
theorem C18_classes (c c' : StatusCode) :
    (c.toNat = c'.toNat → c = c') ∧
    (c.isInformational = true ↔ c.toNat / 100 = 1) ∧ (c.isSuccess = true ↔ c.toNat / 100 = 2) ∧
    (c.isRedirection = true ↔ c.toNat / 100 = 3) ∧ (c.isClientError = true ↔ c.toNat / 100 = 4) ∧
    (c.isServerError = true ↔ c.toNat / 100 = 5) ∧ 1 ≤ c.toNat / 100 ∧ c.toNat / 100 ≤ 5 := by
  refine ⟨?_, ?_⟩
  · intro h
    have h1 := (StatusCode.tryFrom_iff c.toNat c).mpr rfl
    have h2 := (StatusCode.tryFrom_iff c.toNat c').mpr h.symm
    rw [h1] at h2; cases h2; rfl
  · have : ∀ c ∈ StatusCode.all,
      ((c.isInformational = true ↔ c.toNat / 100 = 1) ∧ (c.isSuccess = true ↔ c.toNat / 100 = 2) ∧
      (c.isRedirection = true ↔ c.toNat / 100 = 3) ∧ (c.isClientError = true ↔ c.toNat / 100 = 4) ∧
      (c.isServerError = true ↔ c.toNat / 100 = 5) ∧ 1 ≤ c.toNat / 100 ∧ c.toNat / 100 ≤ 5) := by
      decide
    exact this c c.mem_all

example : StatusCode.isClientError .notFound = true := by decide

/-- The printed form starts with the number and a colon, so distinct statuses print differently;
reasons are distinct too. -/
theorem C18_display (c c' : StatusCode) :
    (∃ r, c.display = dec c.toNat ++ ':' :: r) ∧ (c.display = c'.display → c = c') ∧
    (c.reason = c'.reason → c = c') := by
  refine ⟨⟨' ' :: c.reason, by simp [StatusCode.display]⟩, ?_, ?_⟩
  · intro h
    have hx := congrArg (splitOnce ':') h
    unfold StatusCode.display at hx
    simp only [List.append_assoc, List.cons_append, List.nil_append] at hx
    rw [splitOnce_append (not_mem_dec (by decide) _), splitOnce_append (not_mem_dec (by decide) _)] at hx
    have hd : dec c.toNat = dec c'.toNat := by simpa using congrArg (Option.map Prod.fst) hx
    have hv : c.toNat = c'.toNat := by
      have h1 := digitsVal_natStr (b := 10) (by omega) (by omega) c.toNat
      have h2 := digitsVal_natStr (b := 10) (by omega) (by omega) c'.toNat
      unfold dec at hd
      rw [hd, h2] at h1
      simpa using h1.symm
    exact (C18_classes c c').1 hv
  · have : ∀ c ∈ StatusCode.all, ∀ c' ∈ StatusCode.all, c.reason = c'.reason → c = c' := by
      decide +kernel
    exact this c c.mem_all c' c'.mem_all

example : StatusCode.notFound.display = s!!"404: Not Found" := by decide +kernel

/-! ## C89 reason phrases -/

/-- C89: the canonical reason is the registered phrase of the number, except for 203, 226, 300 and 416. -/
theorem C89_reasons_partial (c : StatusCode) :
    (c.toNat, c.reason) ∈ Spec.registeredReasons ↔ c.toNat ∉ [203, 226, 300, 416] := by
  have : ∀ c ∈ StatusCode.all, ((c.toNat, c.reason) ∈ Spec.registeredReasons ↔ c.toNat ∉ [203, 226, 300, 416]) := by
    decide +kernel
  exact this c c.mem_all

example : StatusCode.toNat .notFound = 404 ∧ (404, StatusCode.reason .notFound) ∈ Spec.registeredReasons := by decide +kernel

/-- The registry gives one phrase for each number, so the four exceptions have another one than registered. -/
theorem C89_registry (n : Nat) (r r' : Str) (h : (n, r) ∈ Spec.registeredReasons) (h' : (n, r') ∈ Spec.registeredReasons) :
    r = r' := by
  have : ∀ e ∈ Spec.registeredReasons, ∀ e' ∈ Spec.registeredReasons, e.1 = e'.1 → e.2 = e'.2 := by decide +kernel
  exact this _ h _ h' rfl

example : (404, s!!"Not Found") ∈ Spec.registeredReasons := by decide +kernel

/-- C89 is violated: four reasons are not those registered. -/
theorem C89_violated :
    StatusCode.nonAuthoritativeInformation.reason = s!!"Non Authoritative Information" ∧
    (203, s!!"Non-Authoritative Information") ∈ Spec.registeredReasons ∧
    StatusCode.imUsed.reason = s!!"Im Used" ∧ (226, s!!"IM Used") ∈ Spec.registeredReasons ∧
    StatusCode.multipleChoice.reason = s!!"Multiple Choice" ∧ (300, s!!"Multiple Choices") ∈ Spec.registeredReasons ∧
    StatusCode.requestedRangeNotSatisfiable.reason = s!!"Requested Range Not Satisfiable" ∧
    (416, s!!"Range Not Satisfiable") ∈ Spec.registeredReasons := by
  decide +kernel

example : (404, StatusCode.notFound.reason) ∈ Spec.registeredReasons := by decide +kernel

/-! ## C19 deserialising a status code -/

/-- Violated: integers wider than 16 bits are truncated. -/
theorem C19_violated_truncation :
    StatusCode.deserialize 65736 = some .ok ∧ StatusCode.deserialize (-65336) = some .ok ∧
    Spec.statusNumber 65736 = false := by
  decide

/-- Inside 0..65535 an integer deserialises exactly when it is a supported number, and gives the
status with that number; serialising is inverse. -/
theorem C19_deserialize_partial (v : Int) (h0 : 0 ≤ v) (h1 : v < 65536) (c : StatusCode) :
    (StatusCode.deserialize v = some c ↔ v = c.toNat) ∧
    (StatusCode.deserialize v ≠ none ↔ Spec.statusNumber v.toNat = true) ∧
    StatusCode.deserialize (c.serialize : Int) = some c := by
  have hv : StatusCode.asU16 v = v.toNat := by
    unfold StatusCode.asU16
    rw [Int.emod_eq_of_lt h0 h1]
  have hr : ∀ c ∈ StatusCode.all, StatusCode.deserialize (c.serialize : Int) = some c := by decide
  refine ⟨?_, ?_, hr c c.mem_all⟩
  · unfold StatusCode.deserialize
    rw [hv, StatusCode.tryFrom_iff]
    omega
  · unfold StatusCode.deserialize
    rw [hv, (C18_convert v.toNat).1]
    exact Option.ne_none_iff_exists'

example : StatusCode.deserialize 204 = some .noContent := by decide

/-- In general an integer deserialises exactly when its low 16 bits are a supported number. -/
theorem C19_deserialize_mod (v : Int) (c : StatusCode) :
    StatusCode.deserialize v = some c ↔ v % 65536 = c.toNat := by
  unfold StatusCode.deserialize StatusCode.asU16
  rw [StatusCode.tryFrom_iff]
  omega

example : StatusCode.deserialize 404 = some .notFound ∧ StatusCode.deserialize (404 - 65536) = some .notFound := by decide +kernel

/-! ## C20 versions -/

/-- A text deserialises to a version exactly when it is that version's printed form. -/
theorem C20_deserialize_iff (s : Str) (v : Version) :
    Version.deserialize s = some v ↔ s = v.asStr := by
  unfold Version.deserialize
  constructor
  · intro h
    (repeat' split at h) <;> cases h
    all_goals assumption
  · rintro rfl; cases v <;> decide

example : Version.deserialize s!!"HTTP/2" = some .http2_0 := by decide

/-- The order agrees with the protocol's major and minor numbers. -/
theorem C20_order (a b : Version) :
    Version.cmp a b = (compare (Spec.versionNumber a).1 (Spec.versionNumber b).1).then
      (compare (Spec.versionNumber a).2 (Spec.versionNumber b).2) := by
  cases a <;> cases b <;> decide

example : Version.cmp .http1_0 .http1_1 = .lt ∧ Version.cmp .http2_0 .http1_1 = .gt := by decide

/-! ## C21 the `Status` trait -/

variable {T σ : Type} {W : ErrTypes}

/-- Successes pass through unchanged whatever the status; the lazy variants do not run their
closure. -/
theorem C21_success (t : T) (s : StatusArg) (f : σ → StatusArg × σ) (st : σ) :
    StatusTrait.resultStatus (W := W) (.ok t) s = .ok t ∧
    StatusTrait.errorStatus (W := W) (.ok t) s = .ok t ∧
    StatusTrait.optionStatus (W := W) (some t) s = .ok t ∧
    StatusTrait.resultWithStatus (W := W) (.ok t) f st = (.ok t, st) ∧
    StatusTrait.errorWithStatus (W := W) (.ok t) f st = (.ok t, st) ∧
    StatusTrait.optionWithStatus (W := W) (some t) f st = (.ok t, st) :=
  ⟨rfl, rfl, rfl, rfl, rfl, rfl⟩

example : StatusTrait.resultStatus (W := W) (.ok 5) (.num 700) = .ok 5 := rfl

/-- On a failure the result is the same failure with the given status; for a bad number it
panics. -/
theorem C21_failure (e : ErrVal W) (he : HError W) (n : Nat) :
    (∀ c : StatusCode, c.toNat = n →
      StatusTrait.resultStatus (T := T) (.error e) (.num n) = .err ⟨.ofVal e, c, some (W.typeName e.1)⟩ ∧
      StatusTrait.errorStatus (T := T) (.error he) (.num n) = .err ⟨he.error, c, he.typeName⟩ ∧
      StatusTrait.optionStatus (T := T) (W := W) none (.num n) =
        .err ⟨.ofVal ⟨W.str, W.ofStr s!!"NoneError"⟩, c, none⟩) ∧
    (Spec.statusNumber n = false →
      StatusTrait.resultStatus (T := T) (.error e) (.num n) = .panic ∧
      StatusTrait.errorStatus (T := T) (.error he) (.num n) = .panic ∧
      StatusTrait.optionStatus (T := T) (W := W) none (.num n) = .panic) := by
  constructor
  · intro c hc
    have h := (StatusCode.tryFrom_iff n c).mpr hc
    simp [StatusTrait.resultStatus, StatusTrait.errorStatus, StatusTrait.optionStatus,
      StatusArg.tryInto, h, HError.new, HError.setStatus, HError.fromStr, ErrArg.into, ErrArg.typeName]
  · intro hn
    have h : StatusCode.tryFrom n = none := by
      cases hh : StatusCode.tryFrom n with
      | none => rfl
      | some c => have := (C18_convert n).1.mpr ⟨c, hh⟩; rw [hn] at this; cases this
    simp [StatusTrait.resultStatus, StatusTrait.errorStatus, StatusTrait.optionStatus,
      StatusArg.tryInto, h, HError.setStatus]

example : Spec.statusNumber 600 = false ∧ StatusCode.toNat .notFound = 404 := by decide

/-- A status given as a status code never panics and is the status of the error. -/
theorem C21_failure_code (e : ErrVal W) (he : HError W) (c : StatusCode) :
    StatusTrait.resultStatus (T := T) (.error e) (.code c) = .err ⟨.ofVal e, c, some (W.typeName e.1)⟩ ∧
    StatusTrait.errorStatus (T := T) (.error he) (.code c) = .err { he with status := c } ∧
    StatusTrait.optionStatus (T := T) (W := W) none (.code c) = .err ⟨.ofVal ⟨W.str, W.ofStr s!!"NoneError"⟩, c, none⟩ :=
  ⟨rfl, rfl, rfl⟩

example (he : HError W) : StatusTrait.errorStatus (T := Nat) (.error he) (.code .notFound) = .err ⟨he.error, .notFound, he.typeName⟩ := rfl

/-- On a failure the lazy variants run the closure exactly once and behave like the eager ones with
its result. -/
theorem C21_lazy (e : ErrVal W) (he : HError W) (f : σ → StatusArg × σ) (st : σ) :
    StatusTrait.resultWithStatus (T := T) (.error e) f st =
      (StatusTrait.resultStatus (.error e) (f st).1, (f st).2) ∧
    StatusTrait.errorWithStatus (T := T) (.error he) f st =
      (StatusTrait.errorStatus (.error he) (f st).1, (f st).2) ∧
    StatusTrait.optionWithStatus (T := T) (W := W) none f st =
      (StatusTrait.optionStatus none (f st).1, (f st).2) :=
  ⟨rfl, rfl, rfl⟩

example (he : HError W) : StatusTrait.errorWithStatus (T := Nat) (.error he) (fun n : Nat => (.code .notFound, n + 1)) 3 =
    (.err ⟨he.error, .notFound, he.typeName⟩, 4) := rfl

/-- Errors converted without a status, and ad-hoc errors, have status 500. -/
theorem C21_default_status (e : ErrVal W) (m : ErrVal W) :
    (∃ x, HError.ofError (.val e) = some x ∧ x.status.toNat = 500 ∧ x.error = .ofVal e) ∧
    (∃ x, HError.newAdhoc m = some x ∧ x.status.toNat = 500 ∧ x.error = .ofVal m) :=
  ⟨⟨_, rfl, rfl, rfl⟩, ⟨_, rfl, rfl, rfl⟩⟩

example (e : ErrVal W) : (HError.newAdhoc e).map HError.getStatus = some .internalServerError := rfl

end HT
