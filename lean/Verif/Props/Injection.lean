import Verif.Lemmas.Injection
import Verif.Props.Forwarded
import Verif.Props.ServerTiming
import Verif.Props.Auth
import Verif.Props.Mime
import Verif.Props.Trace
import Verif.Props.Security
import Verif.Props.Location
import Verif.Props.Content

/-!
C86: which values can break out of their header field.
-/

namespace HT
open Spec

/-! ### The collection -/

/-- No check but ASCII: a value with line ends is stored as it is, and so is a name with a colon, a line end or
nothing at all. -/
theorem C86_violated_collection (n v : Str) (hn : Ascii n) (hv : Ascii v) :
    (HOp.run [.insert n (.str v)]).getStr n = .ok (some [v]) ∧ HeaderName.fromStr n = .ok (lower n) ∧
    HeaderValue.fromStr v = .ok v := by
  have hn' := (spec_ascii_iff _).mp hn
  have hv' := (spec_ascii_iff _).mp hv
  refine ⟨?_, HeaderName.fromStr_ok_iff.mpr ⟨hn', rfl⟩, by unfold HeaderValue.fromStr; rw [if_pos hv']⟩
  have hr : HOp.run [.insert n (.str v)] = FMap.set [] (lower n) [v] := by
    unfold HOp.run
    simp only [List.foldl_cons, List.foldl_nil, HOp.step, Headers.insertStr, HeaderName.ofStr_ascii hn',
      Headers.insert, writeValues_eq, Spec.writeValues]
    rw [if_pos (by simpa [Ascii] using hv)]
    rfl
  unfold Headers.getStr
  rw [hr, HeaderName.ofStr_ascii hn']
  show Res.ok (Headers.get (FMap.set [] (lower n) [v]) (lower n)) = _
  rw [get_set_self]

example : Ascii s!!"x\r\nSet-Cookie: a=b" ∧ ¬ FieldText s!!"x\r\nSet-Cookie: a=b" := by decide
example : Ascii s!!"a: b\r\nc" := by decide

/-- A collection holds field texts as long as every call passes field texts. -/
theorem C86_collection (ops : List HOp) (h : ∀ op ∈ ops, ∀ v ∈ passed op, FieldText v) : CleanHeaders (HOp.run ops) := by
  induction ops using List.reverseRecOn with
  | nil => intro n vs hm; cases hm
  | append_singleton ops op ih =>
    rw [HOp.run_append]
    have ih := ih fun o ho => h o (by simp [ho])
    have ho := h op (by simp)
    have wr : ∀ (a : HvArg) (vs : List Str), Spec.writeValues a = some vs → (∀ v ∈ passed (.insert [] a), FieldText v) →
        ∀ v ∈ vs, FieldText v := by
      intro a vs hw hp
      cases a with
      | str s =>
        simp only [Spec.writeValues] at hw
        by_cases hc : s.all (fun c => c.toNat < 128) = true
        · rw [if_pos hc] at hw; cases hw; exact hp
        · rw [if_neg hc] at hw; cases hw
      | value v => cases hw; exact hp
      | slice l => cases hw; exact hp
      | values l => cases hw; exact hp
    refine HOp.forall_step (P := fun _ vs => ∀ v ∈ vs, FieldText v) op ih ?_ ?_ ?_ ?_ ?_
    · rintro n a vs (rfl | rfl) _ hw
      · exact wr a vs hw ho
      · exact wr a vs hw ho
    · rintro n a vs vs' rfl _ hw hp v hv
      rcases List.mem_append.mp hv with hv | hv
      · exact hp v hv
      · exact wr a vs hw ho v hv
    · rintro n vs vs' rfl hp v hv
      rcases List.mem_append.mp hv with hv | hv
      · exact hp v hv
      · exact ho v hv
    · rintro n i x vs' rfl hp v hv
      rcases List.mem_or_eq_of_mem_set hv with hv | rfl
      · exact hp v hv
      · exact ho v (by simp [passed])
    · rintro n o vs' rfl _ v hv
      cases hv

example : CleanHeaders (HOp.run [.insert s!!"A" (.str s!!"x"), .append s!!"a" (.str s!!"y\tz"), .remove s!!"b"]) :=
  C86_collection _ (by decide)

/-! ### Headers that carry numbers, dates and keywords -/

theorem fieldText_b64 (bs : List Byte) : FieldText (b64Encode bs) := by
  have key : ∀ n < 64, FieldChar (b64Char n) := by decide +kernel
  have hp : FieldChar '=' := by decide
  obtain ⟨vs, k, h1, h2, -⟩ := b64Encode_values bs
  rw [h1, fieldText_append]
  constructor
  · intro c hc
    obtain ⟨v, hv, rfl⟩ := List.mem_map.mp hc
    exact key v (h2 v hv)
  · intro c hc
    rw [List.eq_of_mem_replicate hc]
    exact hp

theorem fieldText_display (F : FlFormat) (x : Fl) : FieldText (x.display F) := by
  have sg : ∀ neg : Bool, FieldText (if neg then s!!"-" else []) := by decide
  have dt : ∀ c a b, FieldText (Fl.decimalText c a b) := by
    intro c a b
    unfold Fl.decimalText
    split
    · exact fieldText_dec _
    · rw [fieldText_append, fieldText_append]
      exact ⟨⟨fieldText_dec _, by decide⟩, fieldText_zpad _ _⟩
  have fr : ∀ m fuel b, FieldText (Fl.displayFrac F m fuel b) := by
    intro m fuel
    induction fuel with
    | zero => intro b; exact dt _ _ _
    | succ fuel ih =>
      intro b
      unfold Fl.displayFrac
      split
      · exact dt _ _ _
      · exact ih _
  have it : ∀ m a, FieldText (Fl.displayInt F m a) := by
    intro m a
    induction a with
    | zero => exact fr _ _ _
    | succ a ih =>
      unfold Fl.displayInt
      split
      · exact dt _ _ _
      · exact ih
  cases x with
  | fin neg m => exact fieldText_append.mpr ⟨sg neg, it _ _⟩
  | inf neg => exact fieldText_append.mpr ⟨sg neg, by decide⟩
  | nan => show FieldText s!!"NaN"; decide

theorem fieldText_fmt3 (F : FlFormat) (x : Fl) : FieldText (x.fmt3 F) := by
  have sg : ∀ neg : Bool, FieldText (if neg then s!!"-" else []) := by decide
  cases x with
  | fin neg m =>
    unfold Fl.fmt3
    rw [fieldText_append, fieldText_append, fieldText_append]
    exact ⟨⟨⟨sg neg, fieldText_dec _⟩, by decide⟩, fieldText_zpad _ _⟩
  | inf neg => exact fieldText_append.mpr ⟨sg neg, by decide⟩
  | nan => show FieldText s!!"NaN"; decide

theorem fieldText_proposal {α : Type} {text : α → Str} {p : Proposal α} :
    FieldText (p.display text) ↔ FieldText (text p.item) := by
  have h : FieldText s!!";q=" := by decide
  unfold Proposal.display
  cases p.weight with
  | none => rfl
  | some w =>
    show FieldText (text p.item ++ s!!";q=" ++ w.fmt3 f32Format) ↔ _
    rw [fieldText_append, fieldText_append]
    exact ⟨fun h => h.1.1, fun h' => ⟨⟨h', h⟩, fieldText_fmt3 _ _⟩⟩

theorem fieldText_acceptList {α : Type} {text : α → Str} {a : AcceptList α} {v : Str} (h : a.value text = .ok v) :
    FieldText v ↔ ∀ p ∈ a.entries, FieldText (text p.item) := by
  unfold AcceptList.value at h
  cases h
  rw [fieldText_writeStar (by decide), fieldText_writeLoop]
  simp [fieldText_proposal]

theorem fieldText_imf {f : Fields} (h : f.Real) : FieldText f.imf := by
  have hd : ∀ w < 7, FieldText (shortDay w) := by decide
  have hm : ∀ m < 13, 1 ≤ m → FieldText (monthStr m) := by decide
  have h2 : ∀ n < 100, FieldText (d2 n) := by decide +kernel
  have h4 : ∀ n < 10000, FieldText (d4 n) := fun n hn =>
    fieldText_append.mpr ⟨h2 _ (by omega), h2 _ (by omega)⟩
  have hl := monthLen_le (y := f.year) (m := f.month)
  obtain ⟨a1, a2, a3, a4, a5, a6, a7, a8, a9⟩ := h
  have hw := weekday_lt f.dayNumber
  unfold Fields.imf Fields.clock
  simp only [fieldText_append]
  have := hd _ hw
  have := hm f.month (by omega) a3
  have := h2 f.day (by omega)
  have := h2 f.hour (by omega)
  have := h2 f.minute (by omega)
  have := h2 f.second (by omega)
  have := h4 f.year (by omega)
  simp_all
  decide

theorem fieldText_date {t : SysTime} {v : Str} (h : fmtHttpDate t = .ok v) : FieldText v := by
  by_cases hr : 0 ≤ t.secs ∧ t.secs < 253402300800
  · obtain ⟨f, hf, -, he⟩ := fmtHttpDate_in hr.1 hr.2
    rw [he] at h
    cases h
    exact fieldText_imf hf
  · rw [fmtHttpDate_out (by omega)] at h
    cases h

/-- Headers made of numbers, dates, keywords, hexadecimal and base64 digits write field texts whatever they
hold. -/
theorem C86_fixed :
    (∀ n v, ContentLength.value n = .ok v → FieldText v) ∧
    (∀ v, Expect.value = .ok v → FieldText v) ∧
    (∀ d v, Age.value d = .ok v → FieldText v) ∧
    (∀ r v, RetryAfter.value r = .ok v → FieldText v) ∧
    (∀ k t v, DateHeader.value k t = .ok v → FieldText v) ∧
    (∀ ds v, CacheControl.value ds = .ok v → FieldText v) ∧
    (∀ l v, ClearSiteData.value l = .ok v → FieldText v) ∧
    (∀ ms v, Allow.value ms = .ok v → FieldText v) ∧
    (∀ a v, AcceptEncoding.value a = .ok v → FieldText v) ∧
    (∀ a v, TE.value a = .ok v → FieldText v) ∧
    (∀ p : Hsts, FieldText p.headerValue) ∧
    (∀ b : BasicAuth, FieldText b.headerValue) ∧
    (∀ c : TraceContext, FieldText c.headerValue) := by
  refine ⟨?_, ?_, ?_, ?_, ?_, ?_, ?_, ?_, ?_, ?_, ?_, ?_, ?_⟩
  · rintro n v h; cases h; exact fieldText_dec n
  · rintro v h; cases h; decide
  · rintro d v h; cases h; exact fieldText_dec _
  · rintro (d | t) v h
    · cases h; exact fieldText_dec _
    · exact fieldText_date h
  · rintro k t v h
    exact fieldText_date (by cases k <;> exact h)
  · rintro ds v h
    cases h
    rw [fieldText_writeLoop]
    intro x hx
    obtain ⟨d, -, rfl⟩ := List.mem_map.mp hx
    cases d with
    | maxStale o =>
      cases o with
      | none => decide
      | some d => exact fieldText_append.mpr ⟨by decide, fieldText_dec _⟩
    | maxAge d => exact fieldText_append.mpr ⟨by decide, fieldText_dec _⟩
    | minFresh d => exact fieldText_append.mpr ⟨by decide, fieldText_dec _⟩
    | sMaxAge d => exact fieldText_append.mpr ⟨by decide, fieldText_dec _⟩
    | staleIfError d => exact fieldText_append.mpr ⟨by decide, fieldText_dec _⟩
    | staleWhileRevalidate d => exact fieldText_append.mpr ⟨by decide, fieldText_dec _⟩
    | _ => decide
  · rintro l v h
    cases h
    rw [fieldText_writeStar (by decide), fieldText_writeLoop]
    intro x hx
    obtain ⟨d, -, rfl⟩ := List.mem_map.mp hx
    cases d <;> decide
  · rintro l v h
    cases h
    rw [fieldText_writeLoop]
    intro x hx
    obtain ⟨d, -, rfl⟩ := List.mem_map.mp hx
    cases d <;> decide
  · rintro a v h
    rw [fieldText_acceptList h]
    intro p _
    cases p.item <;> decide
  · rintro a v h
    rw [fieldText_acceptList h]
    intro p _
    cases p.item <;> decide
  · intro p
    have h0 : FieldText (s!!"max-age=" ++ natStr 10 p.maxAge.secs) :=
      fieldText_append.mpr ⟨by decide, fieldText_natStr _⟩
    have h1 : FieldText s!!";includeSubdomains" := by decide
    have h2 : FieldText s!!";preload" := by decide
    unfold Hsts.headerValue
    cases p.includeSubdomains <;> cases p.preload
    · exact h0
    · exact fieldText_append.mpr ⟨h0, h2⟩
    · exact fieldText_append.mpr ⟨h0, h1⟩
    · exact fieldText_append.mpr ⟨fieldText_append.mpr ⟨h0, h1⟩, h2⟩
  · intro b
    have h0 : FieldText (Scheme.basic.toStr ++ s!!" ") := by decide
    exact fieldText_append.mpr ⟨h0, fieldText_b64 _⟩
  · intro c
    unfold TraceContext.headerValue
    simp only [fieldText_append]
    exact ⟨⟨⟨⟨⟨⟨fieldText_hexPad _ _, by decide⟩, fieldText_hexPad _ _⟩, by decide⟩, fieldText_hexPad _ _⟩,
      by decide⟩, fieldText_hexPad _ _⟩

example : BasicAuth.headerValue ⟨s!!"a\r\nb", s!!"c"⟩ = s!!"Basic YQ0KYjpj" := by decide +kernel

/-! ### Headers that carry texts -/

theorem fieldText_etag (e : ETag) : FieldText e.display ↔ FieldText (etagBody e) := by
  have h1 : FieldText s!!"\"" := by decide
  have h2 : FieldText s!!"W/\"" := by decide
  cases e <;> simp only [ETag.display, etagBody, fieldText_append, h1, h2, true_and, and_true]

theorem fieldText_star {α : Type} {star : Str} {f : α → Str} {l : StarList α} (hs : FieldText star) :
    FieldText (writeStar star (writeLoop [] true (l.entries.map f)) l.wildcard) ↔ ∀ e ∈ l.entries, FieldText (f e) := by
  rw [fieldText_writeStar hs, fieldText_writeLoop]
  simp

theorem fieldText_metric (m : Metric) :
    FieldText m.text ↔ FieldText m.name ∧ ∀ t, m.desc = some t → FieldText t := by
  have h1 : FieldText s!!"; dur=" := by decide
  have h2 : FieldText s!!"; desc=\"" := by decide
  have h3 : FieldText s!!"\"" := by decide
  have h4 : ∀ d, FieldText (Metric.millis d) := fun d => fieldText_display _ _
  obtain ⟨n, d, t⟩ := m
  unfold Metric.text Metric.textOf
  cases d <;> cases t <;> simp only [fieldText_append, h4] <;> simp_all

theorem fieldText_mimeParam (e : Str × Str) : FieldText (Mime.displayParam e) ↔ FieldText e.1 ∧ FieldText e.2 := by
  have h1 : FieldText s!!";" := by decide
  have h2 : FieldText s!!"=" := by decide
  have h3 : FieldText s!!"=\"" := by decide
  have h4 : FieldText s!!"\"" := by decide
  have h5 : FieldText (Mime.escape e.2) ↔ FieldText e.2 := fieldText_escape
  unfold Mime.displayParam
  split <;> simp only [fieldText_append, h1, h2, h3, h4, h5, true_and, and_true]

theorem fieldText_mime (m : Mime) :
    FieldText m.display ↔ FieldText m.essence ∧ ∀ e ∈ m.params, FieldText e.1 ∧ FieldText e.2 := by
  have h1 : FieldText (if m.isUtf8 then s!!";charset=utf-8" else []) := by cases m.isUtf8 <;> decide
  unfold Mime.display
  simp only [fieldText_append, fieldText_flatMap, fieldText_mimeParam, h1, and_true]

theorem fieldText_forValue (v : Str) : FieldText (Forwarded.formatValue v) ↔ FieldText v := by
  have h4 : FieldText s!!"\"" := by decide
  unfold Forwarded.formatValue
  split
  · rfl
  · simp only [fieldText_append, fieldText_escape, h4, true_and, and_true]

theorem fieldText_forwarded (f : Forwarded) :
    FieldText f.headerValue ↔ (∀ v ∈ f.forwardedFor, FieldText v) ∧ (∀ v ∈ f.by', FieldText v) ∧
      (∀ v ∈ f.host, FieldText v) ∧ ∀ v ∈ f.proto, FieldText v := by
  have h1 : FieldText s!!"by=" := by decide
  have h2 : FieldText s!!";" := by decide
  have h3 : FieldText s!!"host=" := by decide
  have h4 : FieldText s!!"proto=" := by decide
  have h5 : FieldText s!!"for=" := by decide
  have h6 : FieldText s!!", " := by decide
  have hj : FieldText (join s!!", " (f.forwardedFor.map fun v => s!!"for=" ++ Forwarded.formatValue v)) ↔
      ∀ v ∈ f.forwardedFor, FieldText v := by
    rw [fieldText_join h6]
    simp only [List.mem_map, forall_exists_index, and_imp, forall_apply_eq_imp_iff₂, fieldText_append,
      fieldText_forValue, h5, true_and]
  generalize hJ : join s!!", " (f.forwardedFor.map fun v => s!!"for=" ++ Forwarded.formatValue v) = J at hj
  unfold Forwarded.headerValue
  rw [hJ]
  have e : ∀ a : Str, (a ++ s!!";").dropLast = a := fun a => List.dropLast_concat
  cases f.by' <;> cases f.host <;> cases f.proto <;>
    simp only [e, fieldText_append, hj, h1, h2, h3, h4, fieldText_nil, true_and, and_true, Option.mem_def,
      Option.some.injEq, forall_eq', reduceCtorEq, false_implies, implies_true] <;> tauto

/-- Headers that carry texts write field texts exactly when their texts are ones: nothing is escaped or
refused. -/
theorem C86_texts :
    (∀ e v, ETag.value e = .ok v → (FieldText v ↔ FieldText (etagBody e))) ∧
    (∀ l v, IfMatch.value l = .ok v → (FieldText v ↔ ∀ e ∈ l.entries, FieldText (etagBody e))) ∧
    (∀ l v, Vary.value l = .ok v → (FieldText v ↔ ∀ n ∈ l.entries, FieldText n)) ∧
    (∀ (Url : Type) (display : Url → Str) l v, TimingAllowOrigin.value display l = .ok v →
      (FieldText v ↔ ∀ u ∈ l.entries, FieldText (display u))) ∧
    (∀ a : Authorization, FieldText a.headerValue ↔ FieldText a.credentials) ∧
    (∀ a : WwwAuthenticate, FieldText a.headerValue ↔ FieldText a.realm) ∧
    (∀ ms v, ServerTiming.value ms = .ok v →
      (FieldText v ↔ ∀ m ∈ ms, FieldText m.name ∧ ∀ t, m.desc = some t → FieldText t)) ∧
    (∀ m v, ContentType.value m = .ok v →
      (FieldText v ↔ FieldText m.essence ∧ ∀ e ∈ m.params, FieldText e.1 ∧ FieldText e.2)) ∧
    (∀ f : Forwarded, FieldText f.headerValue ↔ (∀ v ∈ f.forwardedFor, FieldText v) ∧ (∀ v ∈ f.by', FieldText v) ∧
      (∀ v ∈ f.host, FieldText v) ∧ ∀ v ∈ f.proto, FieldText v) := by
  refine ⟨?_, ?_, ?_, ?_, ?_, ?_, ?_, ?_, fieldText_forwarded⟩
  · rintro e v h; cases h; exact fieldText_etag e
  · rintro l v h
    cases h
    rw [fieldText_star (by decide)]
    simp only [fieldText_etag]
  · rintro l v h
    unfold Vary.value at h
    obtain ⟨vs, hm, h⟩ := Res.bind_eq_ok_iff.mp h
    cases h
    rw [fieldText_writeStar (by decide), fieldText_writeLoop]
    have := Res.mapM_eq_ok_iff.mp hm
    have e : vs = l.entries := by
      clear hm h
      generalize l.entries = es at this
      induction this with
      | nil => rfl
      | @cons a b _ _ hab _ ih =>
        rw [ih]
        unfold HeaderValue.fromStr HeaderName.asStr at hab
        split at hab
        · rename_i h; split at h
          · cases h; cases hab; rfl
          · cases h
        · cases hab
    rw [e]
  · rintro Url display l v h
    cases h
    exact fieldText_star (by decide)
  · intro a
    have : FieldText (a.scheme.toStr ++ s!!" ") := by cases a.scheme <;> decide
    unfold Authorization.headerValue
    rw [fieldText_append]
    exact ⟨fun h => h.2, fun h => ⟨this, h⟩⟩
  · intro a
    have : FieldText (a.scheme.toStr ++ s!!" realm=\"") := by cases a.scheme <;> decide
    have h2 : FieldText s!!"\", charset=\"UTF-8\"" := by decide
    unfold WwwAuthenticate.headerValue
    rw [fieldText_append, fieldText_append]
    exact ⟨fun h => h.1.2, fun h => ⟨⟨this, h⟩, h2⟩⟩
  · rintro ms v h
    cases h
    rw [fieldText_writeLoop]
    simp only [List.mem_map, forall_exists_index, and_imp, forall_apply_eq_imp_iff₂, fieldText_metric]
  · rintro m v h; cases h; exact fieldText_mime m

example : ¬ FieldText (WwwAuthenticate.headerValue ⟨.basic, s!!"a\r\nX: y"⟩) := by decide

/-! ### Reading and sending again -/

theorem readLast_cases {α : Type} {h : Headers} {n : HeaderName} {f : HeaderValue → Res α} {x : α}
    (hr : readLast h n f = .ok (some x)) : ∃ vs v, h.get n = some (vs ++ [v]) ∧ f v = .ok x := by
  cases hg : h.get n with
  | none => rw [readLast_none hg] at hr; cases hr
  | some l =>
    rcases nil_or_snoc l with rfl | ⟨vs, v, rfl⟩
    · unfold readLast at hr
      rw [hg] at hr
      cases hr
    · rw [readLast_snoc hg] at hr
      obtain ⟨y, hy, e⟩ := map_some_ok.mp hr
      cases e
      exact ⟨vs, v, rfl, hy⟩

theorem fieldText_etagLegal {e : ETag} (h : EtagLegal e) : FieldText (etagBody e) := by
  intro c hc
  obtain ⟨h1, -, h3⟩ := h c hc
  rw [Char.lt_def, UInt32.lt_iff_toNat_lt] at h1
  have : (' ' : Char).val.toNat = 32 := rfl
  have : c.val.toNat = c.toNat := rfl
  right; omega

theorem fieldText_mimeWF {m : Mime} (h : MimeWF m) :
    FieldText m.essence ∧ ∀ e ∈ m.params, FieldText e.1 ∧ FieldText e.2 := by
  refine ⟨?_, fun e he => ⟨fieldText_token (h.names e he).1.2, fieldText_quoted (h.values e he)⟩⟩
  rw [h.essence, fieldText_append, fieldText_cons]
  exact ⟨fieldText_token h.base.1.2, by decide, fieldText_token h.sub.1.2⟩

theorem accept_loop_mem {α : Type} {parse : Str → Res (Option (Proposal α))} (parts : List Str) :
    ∀ (acc a : AcceptList α), AcceptList.loop parse parts acc = .ok a → ∀ p ∈ a.entries,
      p ∈ acc.entries ∨ ∃ t, parse t = .ok (some p) := by
  induction parts with
  | nil => intro acc a h p hp; cases h; exact .inl hp
  | cons t parts ih =>
    intro acc a h p hp
    unfold AcceptList.loop at h
    simp only at h
    split at h
    · exact ih _ _ h p hp
    · split at h
      · exact ih _ _ h p hp
      · obtain ⟨e, he, h⟩ := Res.bind_eq_ok_iff.mp h
        cases e with
        | none => exact ih _ _ h p hp
        | some q =>
          rcases ih _ _ h p hp with h' | h'
          · rcases List.mem_append.mp h' with h' | h'
            · exact .inl h'
            · rw [List.mem_singleton.mp h']; exact .inr ⟨_, he⟩
          · exact .inr h'

theorem fieldText_mediaProposal {t : Str} {p : Proposal Mime} (h : Proposal.mediaFromStr t = .ok p) :
    FieldText p.item.display := by
  unfold Proposal.mediaFromStr at h
  obtain ⟨m, hm, h⟩ := Res.bind_eq_ok_iff.mp h
  obtain ⟨h1, h2⟩ := fieldText_mimeWF (C23_wf hm)
  have key : FieldText (m.removeParam s!!"q").2.display := by
    rw [fieldText_mime]
    unfold Mime.removeParam
    split
    · exact ⟨h1, h2⟩
    · split
      · exact ⟨h1, h2⟩
      · exact ⟨h1, fun e he => h2 e (List.mem_of_mem_eraseP he)⟩
  have nm : ∀ (m : Mime) w, Proposal.newMedia m w = .ok p → p.item = m := by
    intro m w h
    unfold Proposal.newMedia at h
    split at h
    · split at h
      · cases h; rfl
      · cases h
    · cases h; rfl
  revert h key
  generalize m.removeParam s!!"q" = r
  obtain ⟨o, m'⟩ := r
  intro h key
  cases o with
  | none => rw [nm _ _ h]; exact key
  | some t =>
    obtain ⟨w, -, h⟩ := Res.bind_eq_ok_iff.mp h
    rw [nm _ _ h]; exact key

/-- Entity tags and media types that were read, from whatever a peer sent, are sent again as field texts. -/
theorem C86_parsed (h : Headers) :
    (∀ e v, ETag.fromHeaders h = .ok (some e) → ETag.value e = .ok v → FieldText v) ∧
    (∀ l v, IfMatch.fromHeaders h = .ok (some l) → IfMatch.value l = .ok v → FieldText v) ∧
    (∀ l v, IfMatch.noneFromHeaders h = .ok (some l) → IfMatch.value l = .ok v → FieldText v) ∧
    (∀ m v, ContentType.fromHeaders h = .ok (some m) → ContentType.value m = .ok v → FieldText v) ∧
    (∀ a v, Accept.fromHeaders h = .ok (some a) → Accept.value a = .ok v → FieldText v) := by
  have im : ∀ (none : Bool) (l : StarList ETag) v,
      (if none then IfMatch.noneFromHeaders h else IfMatch.fromHeaders h) = .ok (some l) → IfMatch.value l = .ok v →
      FieldText v := by
    intro none l v hr hv
    rw [C86_texts.2.1 l v hv]
    cases hg : h.get (if none then s!!"if-none-match" else s!!"if-match") with
    | none =>
      exfalso
      cases none <;> simp [IfMatch.noneFromHeaders, IfMatch.fromHeaders, readStarList, IfMatch.name, IfMatch.noneName] at hr hg <;>
        rw [hg] at hr <;> cases hr
    | some vs =>
      intro e he
      obtain ⟨-, h2⟩ := ((C34_reads h vs none hg).1 l).mp hr
      obtain ⟨t, -, -, hl⟩ := forall₂_left h2.flip e he
      exact fieldText_etagLegal hl
  refine ⟨?_, fun l v hr hv => im false l v hr hv, fun l v hr hv => im true l v hr hv, ?_, ?_⟩
  · intro e v hr hv
    rw [C86_texts.1 e v hv]
    obtain ⟨vs, x, -, hp⟩ := readLast_cases hr
    exact fieldText_etagLegal (((C33_parse_iff x).1 e).mp hp).2
  · intro m v hr hv
    rw [C86_texts.2.2.2.2.2.2.2.1 m v hv]
    obtain ⟨vs, x, -, hp⟩ := readLast_cases hr
    cases hm : Mime.parse x with
    | ok m' => rw [hm] at hp; cases hp; exact fieldText_mimeWF (C23_wf hm)
    | err t => rw [hm] at hp; cases hp
    | panic => rw [hm] at hp; cases hp

  · intro a v hr hv
    rw [fieldText_acceptList hv]
    intro p hp
    unfold Accept.fromHeaders AcceptList.fromHeaders at hr
    split at hr
    · cases hr
    · obtain ⟨x, hx, e⟩ := map_some_ok.mp hr
      cases e
      rcases accept_loop_mem _ _ _ hx p hp with h | ⟨t, ht⟩
      · cases h
      · obtain ⟨q, hq, e⟩ := map_some_ok.mp ht
        cases e
        exact fieldText_mediaProposal hq

example : ETag.fromHeaders (oneHeader s!!"etag" s!!"\"a\r\nb\"") = .err 400 := by decide +kernel
example : ContentType.fromHeaders (oneHeader s!!"content-type" s!!"a/b;c=\"x\r\ny\"") = .ok (some ⟨s!!"a/b", s!!"a", s!!"b", false, []⟩) := by
  decide +kernel

/-- A token is a field text and so is what a quoted string made of field characters stands for. -/
theorem fieldText_param {raw v : Str} (h : ParamText raw v) (hr : FieldText raw) : FieldText v := by
  rcases h with ⟨rfl, _⟩ | ⟨e, rfl, hq⟩
  · exact hr
  · rw [fieldText_cons, fieldText_append] at hr
    have := hr.2.1
    clear hr
    induction hq with
    | nil => exact this
    | plain _ _ ih => rw [fieldText_cons] at this ⊢; exact ⟨this.1, ih this.2⟩
    | pair _ _ ih => rw [fieldText_cons, fieldText_cons] at this; rw [fieldText_cons]; exact ⟨this.2.1, ih this.2.2⟩

theorem fieldText_forwardedText {s : Str} {ps : List (Str × Str)} (h : ForwardedText s ps) (hs : FieldText s) :
    ∀ p ∈ ps, FieldText p.2 := by
  induction h with
  | nil => intro p hp; cases hp
  | pair _ _ hr _ ih | adjacent _ _ hr _ _ ih | semi _ hr _ ih =>
    simp only [fieldText_append, fieldText_cons] at hs
    intro p hp
    rcases List.mem_cons.mp hp with rfl | hp
    · exact fieldText_param hr (by simp only [hs])
    · exact ih (by simp only [hs]) p hp
  | last _ hr =>
    simp only [fieldText_append, fieldText_cons] at hs
    intro p hp
    rw [List.mem_singleton.mp hp]
    exact fieldText_param hr (by simp only [hs])
  | comma _ hr _ _ _ ih =>
    simp only [fieldText_append, fieldText_cons] at hs
    intro p hp
    rcases List.mem_cons.mp hp with rfl | hp
    · exact fieldText_param hr (by simp only [hs])
    · exact ih (by simp only [hs]) p hp

theorem fieldText_shape {p k v : Str} (h : Shape p k v) (hp : FieldText p) : FieldText v := by
  obtain ⟨w, w', w'', rest, rfl, -⟩ := h
  simp only [fieldText_append, fieldText_cons] at hp
  simp only [hp]

theorem fieldText_entry {e : Str} {m : Metric} (h : EntryText e m) (he : FieldText e) :
    FieldText m.name ∧ ∀ t, m.desc = some t → FieldText t := by
  obtain ⟨n, ps, ss, hs, hf, hn, -, hd⟩ := h
  have hmem : ∀ p ∈ n :: ps, FieldText p := fun p hp => he.mono fun c hc => mem_of_mem_split (hs ▸ hp) hc
  constructor
  · rw [hn]
    refine (hmem n (by simp)).mono fun c hc => ?_
    obtain ⟨w, hw, -⟩ := trimEnd_prefix n
    rw [hw]
    exact List.mem_append_left _ hc
  · intro t ht
    rw [hd] at ht
    have hm := List.mem_of_getLast? ht
    obtain ⟨s, hs', he⟩ := List.mem_filterMap.mp hm
    obtain ⟨p, hp, hpt⟩ := forall₂_left hf.flip s hs'
    obtain ⟨k, v, hsh, hc⟩ := hpt
    have hv := fieldText_shape hsh (hmem p (by simp [hp]))
    cases s with
    | dur d => cases he
    | other => cases he
    | desc t' =>
      cases he
      rcases hc with ⟨_, _, _, _, _, h⟩ | ⟨_, t'', h, h'⟩ | ⟨_, _, h⟩
      · cases h
      · cases h
        rcases h' with rfl | ⟨rfl, -⟩
        · simp only [fieldText_append] at hv; exact hv.1.2
        · exact hv
      · cases h

theorem fieldText_listItems {vs : List Str} (h : ∀ v ∈ vs, FieldText v) : ∀ t ∈ listItems vs, FieldText t := by
  intro t ht
  unfold listItems at ht
  obtain ⟨v, hv, ht⟩ := List.mem_flatMap.mp ht
  obtain ⟨p, hp, rfl⟩ := List.mem_map.mp ht
  exact (h v hv).mono fun c hc => mem_of_mem_split hp (mem_of_mem_trim hc)

/-- What was read from values that are field texts is sent again as a field text (for Forwarded: ASCII
values). -/
theorem C86_relay (h : Headers) (hc : CleanHeaders h) :
    (∀ a, Authorization.fromHeaders h = .ok (some a) → FieldText a.headerValue) ∧
    (∀ a, WwwAuthenticate.fromHeaders h = .ok (some a) → FieldText a.headerValue) ∧
    (∀ l v, Vary.fromHeaders h = .ok (some l) → Vary.value l = .ok v → FieldText v) ∧
    (∀ ms v, ServerTiming.fromHeaders h = .ok (some ms) → ServerTiming.value ms = .ok v → FieldText v) ∧
    (∀ s f, FieldText s → Ascii s → Forwarded.parse s = .ok f → FieldText f.headerValue) := by
  have hg : ∀ {n : HeaderName} {vs : List Str}, h.get n = some vs → ∀ v ∈ vs, FieldText v :=
    fun hv v hm => hc _ _ (FMap.mem_of_get hv) v hm
  refine ⟨?_, ?_, ?_, ?_, ?_⟩
  · intro a hr
    obtain ⟨vs, v, hv, hp⟩ := readLast_cases hr
    obtain ⟨t, rfl, -⟩ := (((C45_reads h).2 vs v hv).1 a).mp hr
    rw [C86_texts.2.2.2.2.1]
    have := hg hv _ (List.mem_append_right _ (List.mem_singleton.mpr rfl))
    rw [fieldText_append, fieldText_cons] at this
    exact this.2.2
  · intro a hr
    obtain ⟨vs, v, hv, hp⟩ := readLast_cases hr
    obtain ⟨t, ws, rest, rfl, -⟩ := (((C47_reads h).2 vs v hv).1 a).mp hr
    rw [C86_texts.2.2.2.2.2.1]
    have := hg hv _ (List.mem_append_right _ (List.mem_singleton.mpr rfl))
    simp only [fieldText_append, fieldText_cons] at this
    simp only [this]
  · intro l v hr hv
    rw [C86_texts.2.2.1 l v hv]
    unfold Vary.fromHeaders at hr
    cases hgv : h.get Vary.name with
    | none => unfold readStarList at hr; rw [hgv] at hr; cases hr
    | some vs =>
      rw [readStarList_some hgv] at hr
      obtain ⟨l', hl, e⟩ := map_some_ok.mp hr
      cases e
      intro n hn
      obtain ⟨t, ht, hpt⟩ := forall₂_left (Res.mapM_eq_ok_iff.mp hl).flip n hn
      obtain ⟨-, rfl⟩ := HeaderName.fromStr_ok_iff.mp hpt
      rw [fieldText_lower]
      exact fieldText_trim (fieldText_listItems (hg hgv) t (List.mem_filter.mp ht).1)
  · intro ms v hr hv
    rw [C86_texts.2.2.2.2.2.2.1 ms v hv]
    cases hgv : h.get s!!"server-timing" with
    | none => unfold ServerTiming.fromHeaders at hr; rw [show ServerTiming.name = s!!"server-timing" from rfl, hgv] at hr; cases hr
    | some vs =>
      have hf := ((C57_reads_partial h vs hgv).1 ms).mp hr
      intro m hm
      obtain ⟨e, he, ht⟩ := forall₂_left hf.flip m hm
      exact fieldText_entry ht (fieldText_listItems (hg hgv) e he)
  · intro s f hs ha hp
    obtain ⟨ps, hps, h1, h2, h3, h4⟩ := ((C49_reads_partial ha).1 f).mp hp
    have hall := fieldText_forwardedText hps hs
    have key : ∀ k (o : Option Str), valuesOf k ps = o.toList → ∀ v ∈ o, FieldText v := by
      intro k o ho v hv
      have : v ∈ valuesOf k ps := by rw [ho]; simpa using hv
      obtain ⟨p, hp, rfl⟩ := List.mem_map.mp this
      exact hall p (List.mem_filter.mp hp).1
    rw [fieldText_forwarded]
    refine ⟨?_, key _ _ h2, key _ _ h3, key _ _ h4⟩
    intro v hv
    rw [h1] at hv
    obtain ⟨p, hp, rfl⟩ := List.mem_map.mp hv
    exact hall p (List.mem_filter.mp hp).1

example : CleanHeaders (oneHeader s!!"authorization" s!!"Basic x") := by
  intro n vs h v hv
  rw [oneHeader] at h
  cases List.mem_singleton.mp h
  rw [List.mem_singleton.mp hv]
  decide

/-- The readers do not refuse control characters in stored values: credentials, realms, header names and
timing descriptions with line ends are taken over, and Forwarded takes the control character 15. -/
theorem C86_violated_readers :
    (∃ a, Authorization.fromHeaders (oneHeader s!!"authorization" s!!"Basic a\r\nX: y") = .ok (some a) ∧
      ¬ FieldText a.headerValue) ∧
    (∃ a, WwwAuthenticate.fromHeaders (oneHeader s!!"www-authenticate" s!!"Basic realm=\"a\r\nX: y\"") = .ok (some a) ∧
      ¬ FieldText a.headerValue) ∧
    (∃ l v, Vary.fromHeaders (oneHeader s!!"vary" s!!"a\r\nX: y") = .ok (some l) ∧ Vary.value l = .ok v ∧
      ¬ FieldText v) ∧
    (∃ ms v, ServerTiming.fromHeaders (oneHeader s!!"server-timing" s!!"a;desc=\"\r\nX: y\"") = .ok (some ms) ∧
      ServerTiming.value ms = .ok v ∧ ¬ FieldText v) ∧
    (∃ f, Forwarded.parse (s!!"for=\"" ++ [Char.ofNat 15] ++ s!!"\"") = .ok f ∧ ¬ FieldText f.headerValue) := by
  refine ⟨⟨⟨.basic, s!!"a\r\nX: y"⟩, by decide +kernel⟩, ⟨⟨.basic, s!!"a\r\nX: y"⟩, by decide +kernel⟩,
    ⟨⟨[s!!"a\r\nx: y"], false⟩, s!!"a\r\nx: y", by decide +kernel⟩,
    ⟨[⟨s!!"a", none, some s!!"\r\nX: y"⟩], s!!"a; desc=\"\r\nX: y\"", by decide +kernel⟩,
    ⟨{ forwardedFor := [[Char.ofNat 15]] }, by decide +kernel⟩⟩

/-! ### Content security policies -/

/-- Everything in the policy is a field text. -/
def CspClean (c : Csp) : Prop :=
  (∀ p ∈ c.policy, FieldText p) ∧ ∀ e ∈ c.directives, FieldText e.1 ∧ ∀ s ∈ e.2, FieldText s

theorem fieldText_csp (c : Csp) : FieldText c.value.2 ↔ CspClean c := by
  have hs : FieldText s!!" " := by decide
  have he : ∀ e : Str × List Str, FieldText (Csp.entry e) ↔ FieldText e.1 ∧ ∀ s ∈ e.2, FieldText s := by
    intro e
    unfold Csp.entry
    rw [fieldText_append, fieldText_append, fieldText_join hs]
    simp only [hs, and_true]
  have hm : ∀ p, p ∈ Csp.valueLoop c.policy c.directives ↔ p ∈ c.policy ++ c.directives.map Csp.entry :=
    fun p => (Csp.valueLoop_perm c.policy c.directives).mem_iff
  show FieldText (join s!!"; " (Csp.valueLoop c.policy c.directives)) ↔ _
  rw [fieldText_join (by decide)]
  simp only [hm, List.mem_append, List.mem_map]
  constructor
  · intro h
    exact ⟨fun p hp => h p (.inl hp), fun e hm => (he e).mp (h _ (.inr ⟨e, hm, rfl⟩))⟩
  · rintro ⟨h1, h2⟩ p (hp | ⟨e, hm, rfl⟩)
    · exact h1 p hp
    · exact (he e).mpr (h2 e hm)

theorem clean_insert (m : FMap Str (List Str)) {d s : Str} (hd : FieldText d) :
    (∀ e ∈ FMap.set m d ((FMap.get m d).getD [] ++ [s]), FieldText e.1 ∧ ∀ s ∈ e.2, FieldText s) ↔
      (∀ e ∈ m, FieldText e.1 ∧ ∀ s ∈ e.2, FieldText s) ∧ FieldText s := by
  induction m with
  | nil => simp [FMap.set, FMap.get, hd]
  | cons e m ih =>
    obtain ⟨a, b⟩ := e
    unfold FMap.set FMap.get
    by_cases h : a = d
    · subst h
      simp only [if_true, Option.getD_some, List.forall_mem_cons, List.forall_mem_append, hd, true_and]
      constructor
      · rintro ⟨⟨h1, h2, -⟩, h3⟩; exact ⟨⟨h1, h3⟩, h2⟩
      · rintro ⟨⟨h1, h3⟩, h2⟩; exact ⟨⟨h1, h2, by simp⟩, h3⟩
    · simp only [if_neg h, List.forall_mem_cons]
      rw [ih]
      exact and_assoc.symm

/-- A policy is a field text exactly when the sources and endpoints passed to it are. -/
theorem C86_policy (base : Csp) (hb : base = .new ∨ base = .default) (ops : List CspOp) :
    FieldText (CspOp.run base ops).value.2 ↔ ∀ op ∈ ops, ∀ t ∈ cspTexts op, FieldText t := by
  rw [fieldText_csp]
  have h0 : CspClean base := by
    rcases hb with rfl | rfl
    · exact ⟨(fun p hp => nomatch hp), (fun e he => nomatch he)⟩
    · refine ⟨?_, (fun e he => nomatch he)⟩
      show ∀ p ∈ [s!!"script-src 'self'; object-src 'self'"], FieldText p
      decide
  have hdir : ∀ m : CspMethod, FieldText m.directive := by intro m; cases m <;> decide
  have step : ∀ c op, CspClean (CspOp.step c op) ↔ CspClean c ∧ ∀ t ∈ cspTexts op, FieldText t := by
    intro c op
    cases op with
    | add m s =>
      unfold CspClean
      show (_ ∧ ∀ e ∈ FMap.set c.directives m.directive _, _) ↔ _
      rw [clean_insert _ (hdir m)]
      constructor
      · rintro ⟨h1, h2, h3⟩
        refine ⟨⟨h1, h2⟩, fun t ht => ?_⟩
        rw [List.mem_singleton.mp ht]
        exact h3
      · rintro ⟨⟨h1, h2⟩, h3⟩
        exact ⟨h1, h2, h3 s (by simp [cspTexts])⟩
    | blockAllMixedContent =>
      show CspClean { c with policy := c.policy ++ [_] } ↔ _
      simp only [CspClean, List.forall_mem_append]
      exact ⟨fun h => ⟨⟨h.1.1, h.2⟩, (fun t ht => nomatch ht)⟩, fun h => ⟨⟨h.1.1, by decide⟩, h.1.2⟩⟩
    | upgradeInsecureRequests =>
      show CspClean { c with policy := c.policy ++ [_] } ↔ _
      simp only [CspClean, List.forall_mem_append]
      exact ⟨fun h => ⟨⟨h.1.1, h.2⟩, (fun t ht => nomatch ht)⟩, fun h => ⟨⟨h.1.1, by decide⟩, h.1.2⟩⟩
    | reportOnly =>
      show CspClean { c with reportOnly := true } ↔ _
      simp [CspClean, cspTexts]
    | reportTo es =>
      have hr : FieldText s!!"report-to " := by decide
      have : (∀ p ∈ es.filterMap (fun e => e.map fun j => s!!"report-to " ++ j), FieldText p) ↔
          ∀ t ∈ es.filterMap id, FieldText t := by
        constructor
        · intro h t ht
          have ht : some t ∈ es := by simpa using ht
          have := h (s!!"report-to " ++ t) (List.mem_filterMap.mpr ⟨some t, ht, rfl⟩)
          exact (fieldText_append.mp this).2
        · intro h p hp
          obtain ⟨e, he, hp⟩ := List.mem_filterMap.mp hp
          cases e with
          | none => cases hp
          | some t =>
            cases hp
            exact fieldText_append.mpr ⟨hr, h t (by simpa using he)⟩
      show CspClean { c with policy := c.policy ++ _ } ↔ _
      simp only [CspClean, cspTexts, List.forall_mem_append, this]
      exact ⟨fun h => ⟨⟨h.1.1, h.2⟩, h.1.2⟩, fun h => ⟨⟨h.1.1, h.2⟩, h.1.2⟩⟩
  induction ops using List.reverseRecOn with
  | nil => simp [CspOp.run, h0]
  | append_singleton ops op ih =>
    rw [Csp.run_append, show CspOp.run (CspOp.run base ops) [op] = CspOp.step (CspOp.run base ops) op from rfl, step]
    simp only [List.forall_mem_append]
    exact (and_congr_left' ih).trans (and_congr_right' (by simp))

example : ¬ FieldText (CspOp.run .new [.add .imgSrc s!!"a.example\r\nX: y"]).value.2 := by decide +kernel
example : FieldText (CspOp.run .default [.add .imgSrc s!!"a.example", .upgradeInsecureRequests]).value.2 := by decide +kernel

end HT
