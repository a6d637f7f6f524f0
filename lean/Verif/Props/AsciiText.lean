import Verif.Lemmas.AsciiText
import Verif.Props.Injection
import Verif.Props.Relay

/-!
C04: which typed headers write ASCII values.
-/

namespace HT
open Spec

/-! ### Headers that carry numbers, dates and keywords -/

theorem asciiT_b64 (bs : List Byte) : Ascii (b64Encode bs) := by
  have key : ∀ n < 64, (b64Char n).toNat < 128 := by decide +kernel
  have hp : ('=' : Char).toNat < 128 := by decide
  obtain ⟨vs, k, h1, h2, -⟩ := b64Encode_values bs
  rw [h1, asciiT_append]
  constructor
  · intro c hc
    obtain ⟨v, hv, rfl⟩ := List.mem_map.mp hc
    exact key v (h2 v hv)
  · intro c hc
    rw [List.eq_of_mem_replicate hc]
    exact hp

theorem asciiT_display (F : FlFormat) (x : Fl) : Ascii (x.display F) := by
  have sg : ∀ neg : Bool, Ascii (if neg then s!!"-" else []) := by decide
  have dt : ∀ c a b, Ascii (Fl.decimalText c a b) := by
    intro c a b
    unfold Fl.decimalText
    split
    · exact asciiT_dec _
    · rw [asciiT_append, asciiT_append]
      exact ⟨⟨asciiT_dec _, by decide⟩, asciiT_zpad _ _⟩
  have fr : ∀ m fuel b, Ascii (Fl.displayFrac F m fuel b) := by
    intro m fuel
    induction fuel with
    | zero => intro b; exact dt _ _ _
    | succ fuel ih =>
      intro b
      unfold Fl.displayFrac
      split
      · exact dt _ _ _
      · exact ih _
  have it : ∀ m a, Ascii (Fl.displayInt F m a) := by
    intro m a
    induction a with
    | zero => exact fr _ _ _
    | succ a ih =>
      unfold Fl.displayInt
      split
      · exact dt _ _ _
      · exact ih
  cases x with
  | fin neg m => exact asciiT_append.mpr ⟨sg neg, it _ _⟩
  | inf neg => exact asciiT_append.mpr ⟨sg neg, by decide⟩
  | nan => show Ascii s!!"NaN"; decide

theorem asciiT_fmt3 (F : FlFormat) (x : Fl) : Ascii (x.fmt3 F) := by
  have sg : ∀ neg : Bool, Ascii (if neg then s!!"-" else []) := by decide
  cases x with
  | fin neg m =>
    unfold Fl.fmt3
    rw [asciiT_append, asciiT_append, asciiT_append]
    exact ⟨⟨⟨sg neg, asciiT_dec _⟩, by decide⟩, asciiT_zpad _ _⟩
  | inf neg => exact asciiT_append.mpr ⟨sg neg, by decide⟩
  | nan => show Ascii s!!"NaN"; decide

theorem asciiT_proposal {α : Type} {text : α → Str} {p : Proposal α} :
    Ascii (p.display text) ↔ Ascii (text p.item) := by
  have h : Ascii s!!";q=" := by decide
  unfold Proposal.display
  cases p.weight with
  | none => rfl
  | some w =>
    show Ascii (text p.item ++ s!!";q=" ++ w.fmt3 f32Format) ↔ _
    rw [asciiT_append, asciiT_append]
    exact ⟨fun h => h.1.1, fun h' => ⟨⟨h', h⟩, asciiT_fmt3 _ _⟩⟩

theorem asciiT_acceptList {α : Type} {text : α → Str} {a : AcceptList α} {v : Str} (h : a.value text = .ok v) :
    Ascii v ↔ ∀ p ∈ a.entries, Ascii (text p.item) := by
  unfold AcceptList.value at h
  cases h
  rw [asciiT_writeStar (by decide), asciiT_writeLoop]
  simp [asciiT_proposal]

theorem asciiT_imf {f : Fields} (h : f.Real) : Ascii f.imf := by
  have hd : ∀ w < 7, Ascii (shortDay w) := by decide
  have hm : ∀ m < 13, 1 ≤ m → Ascii (monthStr m) := by decide
  have h2 : ∀ n < 100, Ascii (d2 n) := by decide +kernel
  have h4 : ∀ n < 10000, Ascii (d4 n) := fun n hn =>
    asciiT_append.mpr ⟨h2 _ (by omega), h2 _ (by omega)⟩
  have hl := monthLen_le (y := f.year) (m := f.month)
  obtain ⟨a1, a2, a3, a4, a5, a6, a7, a8, a9⟩ := h
  have hw := weekday_lt f.dayNumber
  unfold Fields.imf Fields.clock
  simp only [asciiT_append]
  have := hd _ hw
  have := hm f.month (by omega) a3
  have := h2 f.day (by omega)
  have := h2 f.hour (by omega)
  have := h2 f.minute (by omega)
  have := h2 f.second (by omega)
  have := h4 f.year (by omega)
  simp_all
  decide

theorem asciiT_date {t : SysTime} {v : Str} (h : fmtHttpDate t = .ok v) : Ascii v := by
  by_cases hr : 0 ≤ t.secs ∧ t.secs < 253402300800
  · obtain ⟨f, hf, -, he⟩ := fmtHttpDate_in hr.1 hr.2
    rw [he] at h
    cases h
    exact asciiT_imf hf
  · rw [fmtHttpDate_out (by omega)] at h
    cases h

/-- Headers made of numbers, dates, keywords, hexadecimal and base64 digits write ASCII whatever they hold, and so does
Vary, which checks. -/
theorem C04_fixed :
    (∀ n v, ContentLength.value n = .ok v → Ascii v) ∧
    (∀ v, Expect.value = .ok v → Ascii v) ∧
    (∀ d v, Age.value d = .ok v → Ascii v) ∧
    (∀ r v, RetryAfter.value r = .ok v → Ascii v) ∧
    (∀ k t v, DateHeader.value k t = .ok v → Ascii v) ∧
    (∀ ds v, CacheControl.value ds = .ok v → Ascii v) ∧
    (∀ l v, ClearSiteData.value l = .ok v → Ascii v) ∧
    (∀ ms v, Allow.value ms = .ok v → Ascii v) ∧
    (∀ a v, AcceptEncoding.value a = .ok v → Ascii v) ∧
    (∀ a v, TE.value a = .ok v → Ascii v) ∧
    (∀ p : Hsts, Ascii p.headerValue) ∧
    (∀ b : BasicAuth, Ascii b.headerValue) ∧
    (∀ c : TraceContext, Ascii c.headerValue) ∧
    (∀ l v, Vary.value l = .ok v → Ascii v) := by
  refine ⟨?_, ?_, ?_, ?_, ?_, ?_, ?_, ?_, ?_, ?_, ?_, ?_, ?_, ?_⟩
  · rintro n v h; cases h; exact asciiT_dec n
  · rintro v h; cases h; decide
  · rintro d v h; cases h; exact asciiT_dec _
  · rintro (d | t) v h
    · cases h; exact asciiT_dec _
    · exact asciiT_date h
  · rintro k t v h
    exact asciiT_date (by cases k <;> exact h)
  · rintro ds v h
    cases h
    rw [asciiT_writeLoop]
    intro x hx
    obtain ⟨d, -, rfl⟩ := List.mem_map.mp hx
    cases d with
    | maxStale o =>
      cases o with
      | none => decide
      | some d => exact asciiT_append.mpr ⟨by decide, asciiT_dec _⟩
    | maxAge d => exact asciiT_append.mpr ⟨by decide, asciiT_dec _⟩
    | minFresh d => exact asciiT_append.mpr ⟨by decide, asciiT_dec _⟩
    | sMaxAge d => exact asciiT_append.mpr ⟨by decide, asciiT_dec _⟩
    | staleIfError d => exact asciiT_append.mpr ⟨by decide, asciiT_dec _⟩
    | staleWhileRevalidate d => exact asciiT_append.mpr ⟨by decide, asciiT_dec _⟩
    | _ => decide
  · rintro l v h
    cases h
    rw [asciiT_writeStar (by decide), asciiT_writeLoop]
    intro x hx
    obtain ⟨d, -, rfl⟩ := List.mem_map.mp hx
    cases d <;> decide
  · rintro l v h
    cases h
    rw [asciiT_writeLoop]
    intro x hx
    obtain ⟨d, -, rfl⟩ := List.mem_map.mp hx
    cases d <;> decide
  · rintro a v h
    rw [asciiT_acceptList h]
    intro p _
    cases p.item <;> decide
  · rintro a v h
    rw [asciiT_acceptList h]
    intro p _
    cases p.item <;> decide
  · intro p
    have h0 : Ascii (s!!"max-age=" ++ natStr 10 p.maxAge.secs) :=
      asciiT_append.mpr ⟨by decide, asciiT_natStr _⟩
    have h1 : Ascii s!!";includeSubdomains" := by decide
    have h2 : Ascii s!!";preload" := by decide
    unfold Hsts.headerValue
    cases p.includeSubdomains <;> cases p.preload
    · exact h0
    · exact asciiT_append.mpr ⟨h0, h2⟩
    · exact asciiT_append.mpr ⟨h0, h1⟩
    · exact asciiT_append.mpr ⟨asciiT_append.mpr ⟨h0, h1⟩, h2⟩
  · intro b
    have h0 : Ascii (Scheme.basic.toStr ++ s!!" ") := by decide
    exact asciiT_append.mpr ⟨h0, asciiT_b64 _⟩
  · intro c
    unfold TraceContext.headerValue
    simp only [asciiT_append]
    exact ⟨⟨⟨⟨⟨⟨asciiT_hexPad _ _, by decide⟩, asciiT_hexPad _ _⟩, by decide⟩, asciiT_hexPad _ _⟩,
      by decide⟩, asciiT_hexPad _ _⟩
  · rintro l v h
    unfold Vary.value at h
    obtain ⟨vs, hm, h⟩ := Res.bind_eq_ok_iff.mp h
    cases h
    rw [asciiT_writeStar (by decide), asciiT_writeLoop]
    intro x hx
    obtain ⟨n, -, hn⟩ := forall₂_left (Res.mapM_eq_ok_iff.mp hm).flip x hx
    split at hn
    · rename_i hok
      cases hn
      unfold HeaderValue.fromStr at hok
      split at hok
      · rename_i ha; cases hok; exact (spec_ascii_iff _).mpr ha
      · cases hok
    · cases hn

example : BasicAuth.headerValue ⟨s!!"é", s!!"c"⟩ = s!!"Basic w6k6Yw==" := by decide +kernel

/-! ### Headers that carry texts -/

theorem asciiT_etag (e : ETag) : Ascii e.display ↔ Ascii (etagBody e) := by
  have h1 : Ascii s!!"\"" := by decide
  have h2 : Ascii s!!"W/\"" := by decide
  cases e <;> simp only [ETag.display, etagBody, asciiT_append, h1, h2, true_and, and_true]

theorem asciiT_star {α : Type} {star : Str} {f : α → Str} {l : StarList α} (hs : Ascii star) :
    Ascii (writeStar star (writeLoop [] true (l.entries.map f)) l.wildcard) ↔ ∀ e ∈ l.entries, Ascii (f e) := by
  rw [asciiT_writeStar hs, asciiT_writeLoop]
  simp

theorem asciiT_metric (m : Metric) :
    Ascii m.text ↔ Ascii m.name ∧ ∀ t, m.desc = some t → Ascii t := by
  have h1 : Ascii s!!"; dur=" := by decide
  have h2 : Ascii s!!"; desc=\"" := by decide
  have h3 : Ascii s!!"\"" := by decide
  have h4 : ∀ d, Ascii (Metric.millis d) := fun d => asciiT_display _ _
  obtain ⟨n, d, t⟩ := m
  unfold Metric.text Metric.textOf
  cases d <;> cases t <;> simp only [asciiT_append, h4] <;> simp_all

theorem asciiT_mimeParam (e : Str × Str) : Ascii (Mime.displayParam e) ↔ Ascii e.1 ∧ Ascii e.2 := by
  have h1 : Ascii s!!";" := by decide
  have h2 : Ascii s!!"=" := by decide
  have h3 : Ascii s!!"=\"" := by decide
  have h4 : Ascii s!!"\"" := by decide
  have h5 : Ascii (Mime.escape e.2) ↔ Ascii e.2 := asciiT_escape
  unfold Mime.displayParam
  split <;> simp only [asciiT_append, h1, h2, h3, h4, h5, true_and, and_true]

theorem asciiT_mime (m : Mime) :
    Ascii m.display ↔ Ascii m.essence ∧ ∀ e ∈ m.params, Ascii e.1 ∧ Ascii e.2 := by
  have h1 : Ascii (if m.isUtf8 then s!!";charset=utf-8" else []) := by cases m.isUtf8 <;> decide
  unfold Mime.display
  simp only [asciiT_append, asciiT_flatMap, asciiT_mimeParam, h1, and_true]

theorem asciiT_forValue (v : Str) : Ascii (Forwarded.formatValue v) ↔ Ascii v := by
  have h4 : Ascii s!!"\"" := by decide
  unfold Forwarded.formatValue
  split
  · rfl
  · simp only [asciiT_append, asciiT_escape, h4, true_and, and_true]

theorem asciiT_forwarded (f : Forwarded) :
    Ascii f.headerValue ↔ (∀ v ∈ f.forwardedFor, Ascii v) ∧ (∀ v ∈ f.by', Ascii v) ∧
      (∀ v ∈ f.host, Ascii v) ∧ ∀ v ∈ f.proto, Ascii v := by
  have h1 : Ascii s!!"by=" := by decide
  have h2 : Ascii s!!";" := by decide
  have h3 : Ascii s!!"host=" := by decide
  have h4 : Ascii s!!"proto=" := by decide
  have h5 : Ascii s!!"for=" := by decide
  have h6 : Ascii s!!", " := by decide
  have hj : Ascii (join s!!", " (f.forwardedFor.map fun v => s!!"for=" ++ Forwarded.formatValue v)) ↔
      ∀ v ∈ f.forwardedFor, Ascii v := by
    rw [asciiT_join h6]
    simp only [List.mem_map, forall_exists_index, and_imp, forall_apply_eq_imp_iff₂, asciiT_append,
      asciiT_forValue, h5, true_and]
  generalize hJ : join s!!", " (f.forwardedFor.map fun v => s!!"for=" ++ Forwarded.formatValue v) = J at hj
  unfold Forwarded.headerValue
  rw [hJ]
  have e : ∀ a : Str, (a ++ s!!";").dropLast = a := fun a => List.dropLast_concat
  cases f.by' <;> cases f.host <;> cases f.proto <;>
    simp only [e, asciiT_append, hj, h1, h2, h3, h4, asciiT_nil, true_and, and_true, Option.mem_def,
      Option.some.injEq, forall_eq', reduceCtorEq, false_implies, implies_true] <;> tauto

/-- The headers that carry texts write ASCII exactly when their texts are ASCII: nothing is encoded or refused. Missing for
C04: that they are. -/
theorem C04_texts_partial :
    (∀ e v, ETag.value e = .ok v → (Ascii v ↔ Ascii (etagBody e))) ∧
    (∀ l v, IfMatch.value l = .ok v → (Ascii v ↔ ∀ e ∈ l.entries, Ascii (etagBody e))) ∧
    (∀ (Url : Type) (display : Url → Str) l v, TimingAllowOrigin.value display l = .ok v →
      (Ascii v ↔ ∀ u ∈ l.entries, Ascii (display u))) ∧
    (∀ a : Authorization, Ascii a.headerValue ↔ Ascii a.credentials) ∧
    (∀ a : WwwAuthenticate, Ascii a.headerValue ↔ Ascii a.realm) ∧
    (∀ ms v, ServerTiming.value ms = .ok v →
      (Ascii v ↔ ∀ m ∈ ms, Ascii m.name ∧ ∀ t, m.desc = some t → Ascii t)) ∧
    (∀ m v, ContentType.value m = .ok v →
      (Ascii v ↔ Ascii m.essence ∧ ∀ e ∈ m.params, Ascii e.1 ∧ Ascii e.2)) ∧
    (∀ a v, Accept.value a = .ok v →
      (Ascii v ↔ ∀ p ∈ a.entries, Ascii p.item.essence ∧ ∀ e ∈ p.item.params, Ascii e.1 ∧ Ascii e.2)) ∧
    (∀ f : Forwarded, Ascii f.headerValue ↔ (∀ v ∈ f.forwardedFor, Ascii v) ∧ (∀ v ∈ f.by', Ascii v) ∧
      (∀ v ∈ f.host, Ascii v) ∧ ∀ v ∈ f.proto, Ascii v) := by
  refine ⟨?_, ?_, ?_, ?_, ?_, ?_, ?_, ?_, asciiT_forwarded⟩
  · rintro e v h; cases h; exact asciiT_etag e
  · rintro l v h
    cases h
    rw [asciiT_star (by decide)]
    simp only [asciiT_etag]
  · rintro Url display l v h
    cases h
    exact asciiT_star (by decide)
  · intro a
    have : Ascii (a.scheme.toStr ++ s!!" ") := by cases a.scheme <;> decide
    unfold Authorization.headerValue
    rw [asciiT_append]
    exact ⟨fun h => h.2, fun h => ⟨this, h⟩⟩
  · intro a
    have : Ascii (a.scheme.toStr ++ s!!" realm=\"") := by cases a.scheme <;> decide
    have h2 : Ascii s!!"\", charset=\"UTF-8\"" := by decide
    unfold WwwAuthenticate.headerValue
    rw [asciiT_append, asciiT_append]
    exact ⟨fun h => h.1.2, fun h => ⟨⟨this, h⟩, h2⟩⟩
  · rintro ms v h
    cases h
    rw [asciiT_writeLoop]
    simp only [List.mem_map, forall_exists_index, and_imp, forall_apply_eq_imp_iff₂, asciiT_metric]
  · rintro m v h; cases h; exact asciiT_mime m
  · rintro a v h
    rw [asciiT_acceptList h]
    simp only [asciiT_mime]

example : ¬ Ascii (WwwAuthenticate.headerValue ⟨.basic, s!!"é"⟩) := by decide
example : Ascii (WwwAuthenticate.headerValue ⟨.basic, s!!"a\r\nX: y"⟩) := by decide

/-! ### Reading and sending again -/

/-- A token is ASCII and so is what a quoted string of ASCII characters stands for. -/
theorem asciiT_param {raw v : Str} (h : ParamText raw v) (hr : Ascii raw) : Ascii v := by
  rcases h with ⟨rfl, _⟩ | ⟨e, rfl, hq⟩
  · exact hr
  · rw [asciiT_cons, asciiT_append] at hr
    have := hr.2.1
    clear hr
    induction hq with
    | nil => exact this
    | plain _ _ ih => rw [asciiT_cons] at this ⊢; exact ⟨this.1, ih this.2⟩
    | pair _ _ ih => rw [asciiT_cons, asciiT_cons] at this; rw [asciiT_cons]; exact ⟨this.2.1, ih this.2.2⟩

theorem asciiT_forwardedText {s : Str} {ps : List (Str × Str)} (h : ForwardedText s ps) (hs : Ascii s) :
    ∀ p ∈ ps, Ascii p.2 := by
  induction h with
  | nil => intro p hp; cases hp
  | pair _ _ hr _ ih | adjacent _ _ hr _ _ ih | semi _ hr _ ih =>
    simp only [asciiT_append, asciiT_cons] at hs
    intro p hp
    rcases List.mem_cons.mp hp with rfl | hp
    · exact asciiT_param hr (by simp only [hs])
    · exact ih (by simp only [hs]) p hp
  | last _ hr =>
    simp only [asciiT_append, asciiT_cons] at hs
    intro p hp
    rw [List.mem_singleton.mp hp]
    exact asciiT_param hr (by simp only [hs])
  | comma _ hr _ _ _ ih =>
    simp only [asciiT_append, asciiT_cons] at hs
    intro p hp
    rcases List.mem_cons.mp hp with rfl | hp
    · exact asciiT_param hr (by simp only [hs])
    · exact ih (by simp only [hs]) p hp

theorem asciiT_shape {p k v : Str} (h : Shape p k v) (hp : Ascii p) : Ascii v := by
  obtain ⟨w, w', w'', rest, rfl, -⟩ := h
  simp only [asciiT_append, asciiT_cons] at hp
  simp only [hp]

theorem asciiT_entry {e : Str} {m : Metric} (h : EntryText e m) (he : Ascii e) :
    Ascii m.name ∧ ∀ t, m.desc = some t → Ascii t := by
  obtain ⟨n, ps, ss, hs, hf, hn, -, hd⟩ := h
  have hmem : ∀ p ∈ n :: ps, Ascii p := fun p hp => he.mono fun c hc => mem_of_mem_split (hs ▸ hp) hc
  constructor
  · rw [hn]
    refine (hmem n (by simp)).mono fun c hc => ?_
    obtain ⟨w, hw, -⟩ := trimEnd_prefix n
    rw [hw]
    exact List.mem_append_left _ hc
  · intro t ht
    rw [hd] at ht
    have hm := List.mem_of_getLast? ht
    obtain ⟨s, hs', he⟩ := List.mem_filterMap.mp hm
    obtain ⟨p, hp, hpt⟩ := forall₂_left hf.flip s hs'
    obtain ⟨k, v, hsh, hc⟩ := hpt
    have hv := asciiT_shape hsh (hmem p (by simp [hp]))
    cases s with
    | dur d => cases he
    | other => cases he
    | desc t' =>
      cases he
      rcases hc with ⟨_, _, _, _, _, h⟩ | ⟨_, t'', h, h'⟩ | ⟨_, _, h⟩
      · cases h
      · cases h
        rcases h' with rfl | ⟨rfl, -⟩
        · simp only [asciiT_append] at hv; exact hv.1.2
        · exact hv
      · cases h

theorem asciiT_listItems {vs : List Str} (h : ∀ v ∈ vs, Ascii v) : ∀ t ∈ listItems vs, Ascii t := by
  intro t ht
  unfold listItems at ht
  obtain ⟨v, hv, ht⟩ := List.mem_flatMap.mp ht
  obtain ⟨p, hp, rfl⟩ := List.mem_map.mp ht
  exact (h v hv).mono fun c hc => mem_of_mem_split hp (mem_of_mem_trim hc)

/-- Reading a quoted string brings no new characters. -/
theorem quotedFrom_mem (start s : Str) : (∀ c ∈ (Mime.quotedFrom start s).1, c ∈ s) ∧
    ∀ c ∈ (Mime.quotedFrom start s).2, c ∈ start ∨ c ∈ s := by
  induction hn : s.length using Nat.strongRecOn generalizing start s with
  | ind n ih =>
    subst hn
    cases s with
    | nil => simp [Mime.quotedFrom]
    | cons x s =>
      unfold Mime.quotedFrom
      split
      · exact ⟨fun c hc => (List.not_mem_nil hc).elim, fun c hc => .inr (List.mem_cons_of_mem _ hc)⟩
      · split
        · rename_i hx
          cases s with
          | nil => simp [hx]
          | cons d s =>
            obtain ⟨h1, h2⟩ := ih s.length (by simp; omega) s s rfl
            simp only [List.mem_cons]
            exact ⟨fun c hc => hc.elim (fun e => .inr (.inl e)) fun h => .inr (.inr (h1 c h)),
              fun c hc => .inr (.inr (.inr ((h2 c hc).elim id id)))⟩
        · obtain ⟨h1, h2⟩ := ih s.length (by simp) start s rfl
          simp only [List.mem_cons]
          exact ⟨fun c hc => hc.imp id (h1 c), fun c hc => (h2 c hc).imp id .inr⟩

theorem quotedTail_mem (s : Str) : (∀ c ∈ (Mime.quotedTail s).1, c ∈ s) ∧ ∀ c ∈ (Mime.quotedTail s).2, c ∈ s :=
  ⟨(quotedFrom_mem s s).1, fun c hc => ((quotedFrom_mem s s).2 c hc).elim id id⟩

theorem mem_of_dropOne {s r : Str} (h : Mime.dropOne s = .ok r) : ∀ c ∈ r, c ∈ s := by
  cases s with
  | nil => cases h
  | cons c s =>
    by_cases hc : isAsciiC c = true
    · rw [Mime.dropOne, if_pos hc] at h
      cases h
      exact fun c hc => List.mem_cons_of_mem _ hc
    · rw [Mime.dropOne, if_neg hc] at h
      cases h

theorem mem_of_mem_trimEndWs {s : Str} {c : Char} (h : c ∈ Mime.trimEndWs s) : c ∈ s := by
  unfold Mime.trimEndWs at h
  rw [List.mem_reverse] at h
  exact List.mem_reverse.mp ((List.dropWhile_suffix _).mem h)

/-- Nor does reading a parameter, but for the case of its name. -/
theorem paramStep_mem {s r : Str} {p : Option (Str × Str)} (h : Mime.paramStep s = .ok (some (p, r))) :
    (∀ c ∈ r, c ∈ s) ∧ ∀ q, p = some q → ∀ c ∈ q.2, c ∈ s := by
  unfold Mime.paramStep at h
  obtain ⟨i, h1, h⟩ := Res.bind_eq_ok_iff.mp h
  have m1 := mem_of_dropOne h1
  simp only at h
  have m2 : ∀ c ∈ i.dropWhile Mime.isHttpWs, c ∈ i := fun c hc => (List.dropWhile_suffix _).mem hc
  generalize i.dropWhile Mime.isHttpWs = j at h m2
  have m3 : ∀ c ∈ (Mime.collect [';', '='] j).2, c ∈ j := fun c hc => (List.dropWhile_suffix _).mem hc
  generalize (Mime.collect [';', '='] j).2 = k at h m3
  have mk : ∀ c ∈ k, c ∈ s := fun c hc => m1 c (m2 c (m3 c hc))
  split at h
  · cases h
  · split at h
    · cases h; exact ⟨mk, nofun⟩
    · obtain ⟨m, h2, h⟩ := Res.bind_eq_ok_iff.mp h
      have m4 : ∀ c ∈ m, c ∈ s := fun c hc => mk c (mem_of_dropOne h2 c hc)
      split at h
      · unfold Mime.collectQuoted at h
        cases hd : Mime.dropOne m with
        | ok d =>
          rw [hd] at h
          have m5 : ∀ c ∈ d, c ∈ s := fun c hc => m4 c (mem_of_dropOne hd c hc)
          obtain ⟨q1, q2⟩ := quotedTail_mem d
          simp only [Res.map_ok, Res.ok.injEq, Option.some.injEq, Prod.mk.injEq] at h
          obtain ⟨rfl, rfl⟩ := h
          refine ⟨fun c hc => m5 c (q2 c ((List.dropWhile_suffix _).mem hc)), fun q hq c hc => ?_⟩
          cases hq
          exact m5 c (q1 c hc)
        | err e => rw [hd] at h; cases h
        | panic => rw [hd] at h; cases h
      · have m5 : ∀ c ∈ (Mime.collect [';'] m).2, c ∈ s := fun c hc => m4 c ((List.dropWhile_suffix _).mem hc)
        have m6 : ∀ c ∈ (Mime.collect [';'] m).1, c ∈ s := fun c hc => m4 c ((List.takeWhile_prefix _).mem hc)
        split at h
        · cases h; exact ⟨m5, nofun⟩
        · cases h
          refine ⟨m5, fun q hq c hc => ?_⟩
          cases hq
          exact m6 c (mem_of_mem_trimEndWs hc)

theorem paramLoop_mem (n : Nat) : ∀ (s : Str) (acc r : List (Str × Str) × Bool), s.length ≤ n →
    Mime.paramLoop s acc = .ok r → ∀ e ∈ r.1, e ∈ acc.1 ∨ ∀ c ∈ e.2, c ∈ s := by
  induction n with
  | zero =>
    intro s acc r hl h e he
    have : s = [] := List.eq_nil_of_length_eq_zero (by omega)
    subst this
    unfold Mime.paramLoop at h
    rw [if_pos rfl] at h
    cases h
    exact .inl he
  | succ n ih =>
    intro s acc r hl h e he
    unfold Mime.paramLoop at h
    split at h
    · cases h; exact .inl he
    · split at h
      · cases h; exact .inl he
      · rename_i p rest hp
        have hlen := Mime.paramStep_length hp
        obtain ⟨m1, m2⟩ := paramStep_mem hp
        rcases ih _ _ _ (by omega) h e he with h' | h'
        · cases p with
          | none => exact .inl h'
          | some q =>
            simp only at h'
            unfold Mime.addParam at h'
            split at h'
            · exact .inl h'
            · split at h'
              · split at h'
                · exact .inl h'
                · rcases List.mem_append.mp h' with h' | h'
                  · exact .inl h'
                  · rw [List.mem_singleton.mp h']; exact .inr (m2 q rfl)
              · exact .inl h'
        · exact .inr fun c hc => m1 c (h' c hc)
      · cases h
      · cases h

/-- The values of the parameters of a media type consist of characters of the text it was read from. -/
theorem mime_values_mem {s : Str} {m : Mime} (h : Mime.parse s = .ok m) : ∀ e ∈ m.params, ∀ c ∈ e.2, c ∈ s := by
  have mt : ∀ c ∈ Mime.trimWs s, c ∈ s := fun c hc =>
    (List.dropWhile_suffix _).mem (mem_of_mem_trimEndWs hc)
  unfold Mime.parse at h
  simp only at h
  generalize Mime.trimWs s = t at h mt
  split at h
  · cases h
  split at h
  · cases h
  split at h
  · cases h
  obtain ⟨i, h1, h⟩ := Res.bind_eq_ok_iff.mp h
  have m1 : ∀ c ∈ i, c ∈ s := fun c hc => mt c ((List.dropWhile_suffix _).mem (mem_of_dropOne h1 c hc))
  split at h
  · cases h
  split at h
  · cases h
  cases hp : Mime.paramLoop (Mime.collect [';'] i).2 ([], false) with
  | ok r =>
    rw [hp] at h
    cases h
    intro e he c hc
    rcases paramLoop_mem _ _ _ _ (Nat.le_refl _) hp e he with h' | h'
    · cases h'
    · exact m1 c ((List.dropWhile_suffix _).mem (h' c hc))
  | err e => rw [hp] at h; cases h
  | panic => rw [hp] at h; cases h

/-- A media type is printed in ASCII exactly if its parameter values are ASCII. -/
theorem asciiT_mimeWF {m : Mime} (h : MimeWF m) : Ascii m.display ↔ ∀ e ∈ m.params, Ascii e.2 := by
  rw [asciiT_mime, h.essence]
  constructor
  · exact fun h e he => (h.2 e he).2
  · intro h'
    refine ⟨?_, fun e he => ⟨asciiT_token (h.names e he).1.2, h' e he⟩⟩
    rw [asciiT_append, asciiT_cons]
    exact ⟨asciiT_token h.base.1.2, by decide, asciiT_token h.sub.1.2⟩

theorem asciiT_mimeParse {s : Str} {m : Mime} (h : Mime.parse s = .ok m) (hs : Ascii s) : Ascii m.display :=
  (asciiT_mimeWF (C23_wf h)).mpr fun e he c hc => hs c (mime_values_mem h e he c hc)

theorem asciiT_etagText {e : ETag} (h : Ascii (etagText e)) : Ascii (etagBody e) := by
  refine h.mono fun c hc => ?_
  cases e <;> simp_all [etagText, etagBody]

theorem accept_loop_parts {α : Type} {parse : Str → Res (Option (Proposal α))} (parts : List Str) :
    ∀ (acc a : AcceptList α), AcceptList.loop parse parts acc = .ok a → ∀ p ∈ a.entries,
      p ∈ acc.entries ∨ ∃ t ∈ parts, parse (trim t) = .ok (some p) := by
  induction parts with
  | nil => intro acc a h p hp; cases h; exact .inl hp
  | cons t parts ih =>
    intro acc a h p hp
    have up : ∀ acc' : AcceptList α, (p ∈ acc'.entries ∨ ∃ t ∈ parts, parse (trim t) = .ok (some p)) → acc'.entries = acc.entries →
        p ∈ acc.entries ∨ ∃ t' ∈ t :: parts, parse (trim t') = .ok (some p) := by
      rintro acc' (h | ⟨t', ht, h⟩) he
      · exact .inl (he ▸ h)
      · exact .inr ⟨t', List.mem_cons_of_mem _ ht, h⟩
    unfold AcceptList.loop at h
    simp only at h
    split at h
    · exact up _ (ih _ _ h p hp) rfl
    · split at h
      · exact up _ (ih _ _ h p hp) rfl
      · obtain ⟨e, he, h⟩ := Res.bind_eq_ok_iff.mp h
        cases e with
        | none => exact up _ (ih _ _ h p hp) rfl
        | some q =>
          rcases ih _ _ h p hp with h' | ⟨t', ht, h'⟩
          · rcases List.mem_append.mp h' with h' | h'
            · exact .inl h'
            · rw [List.mem_singleton.mp h']; exact .inr ⟨t, by simp, he⟩
          · exact .inr ⟨t', List.mem_cons_of_mem _ ht, h'⟩

theorem asciiT_mediaProposal {t : Str} {p : Proposal Mime} (h : Proposal.mediaFromStr t = .ok p) (ht : Ascii t) :
    Ascii p.item.display := by
  unfold Proposal.mediaFromStr at h
  obtain ⟨m, hm, h⟩ := Res.bind_eq_ok_iff.mp h
  obtain ⟨h1, h2⟩ := (asciiT_mime m).mp (asciiT_mimeParse hm ht)
  have key : Ascii (m.removeParam s!!"q").2.display := by
    rw [asciiT_mime]
    unfold Mime.removeParam
    split
    · exact ⟨h1, h2⟩
    · split
      · exact ⟨h1, h2⟩
      · exact ⟨h1, fun e he => h2 e (List.mem_of_mem_eraseP he)⟩
  have nm : ∀ (m : Mime) w, Proposal.newMedia m w = .ok p → p.item = m := by
    intro m w h
    unfold Proposal.newMedia at h
    split at h
    · split at h
      · cases h; rfl
      · cases h
    · cases h; rfl
  revert h key
  generalize m.removeParam s!!"q" = r
  obtain ⟨o, m'⟩ := r
  intro h key
  cases o with
  | none => rw [nm _ _ h]; exact key
  | some t =>
    obtain ⟨w, -, h⟩ := Res.bind_eq_ok_iff.mp h
    rw [nm _ _ h]; exact key

/-- What is read from ASCII values is ASCII when it is written again. -/
theorem C04_relay (h : Headers) (hc : ∀ n vs, h.get n = some vs → ∀ v ∈ vs, Ascii v) :
    (∀ a, Authorization.fromHeaders h = .ok (some a) → Ascii a.headerValue) ∧
    (∀ a, WwwAuthenticate.fromHeaders h = .ok (some a) → Ascii a.headerValue) ∧
    (∀ ms v, ServerTiming.fromHeaders h = .ok (some ms) → ServerTiming.value ms = .ok v → Ascii v) ∧
    (∀ v6 f, (∀ s t, v6 s = some t → Ascii t) → Forwarded.fromHeaders v6 h = .ok (some f) → Ascii f.headerValue) ∧
    (∀ e v, ETag.fromHeaders h = .ok (some e) → ETag.value e = .ok v → Ascii v) ∧
    (∀ l v, IfMatch.fromHeaders h = .ok (some l) → IfMatch.value l = .ok v → Ascii v) ∧
    (∀ l v, IfMatch.noneFromHeaders h = .ok (some l) → IfMatch.value l = .ok v → Ascii v) ∧
    (∀ m v, ContentType.fromHeaders h = .ok (some m) → ContentType.value m = .ok v → Ascii v) ∧
    (∀ a v, Accept.fromHeaders h = .ok (some a) → Accept.value a = .ok v → Ascii v) := by
  have hg : ∀ {n : HeaderName} {vs : List Str}, h.get n = some vs → ∀ v ∈ vs, Ascii v :=
    fun hv v hm => hc _ _ hv v hm
  have im : ∀ (none : Bool) (l : StarList ETag) v,
      (if none then IfMatch.noneFromHeaders h else IfMatch.fromHeaders h) = .ok (some l) → IfMatch.value l = .ok v →
      Ascii v := by
    intro none l v hr hv
    rw [C04_texts_partial.2.1 l v hv]
    cases hgv : h.get (if none then s!!"if-none-match" else s!!"if-match") with
    | none =>
      exfalso
      cases none <;> simp [IfMatch.noneFromHeaders, IfMatch.fromHeaders, readStarList, IfMatch.name, IfMatch.noneName] at hr hgv <;>
        rw [hgv] at hr <;> cases hr
    | some vs =>
      intro e he
      obtain ⟨-, h2⟩ := ((C34_reads h vs none hgv).1 l).mp hr
      obtain ⟨t, ht, rfl, -⟩ := forall₂_left h2.flip e he
      exact asciiT_etagText (asciiT_listItems (hg hgv) _ (List.mem_filter.mp ht).1)
  refine ⟨?_, ?_, ?_, ?_, ?_, fun l v hr hv => im false l v hr hv, fun l v hr hv => im true l v hr hv, ?_, ?_⟩
  · intro a hr
    obtain ⟨vs, v, hv, hp⟩ := readLast_cases hr
    obtain ⟨t, rfl, -⟩ := (((C45_reads h).2 vs v hv).1 a).mp hr
    rw [C04_texts_partial.2.2.2.1]
    have := hg hv _ (List.mem_append_right _ (List.mem_singleton.mpr rfl))
    rw [asciiT_append, asciiT_cons] at this
    exact this.2.2
  · intro a hr
    obtain ⟨vs, v, hv, hp⟩ := readLast_cases hr
    obtain ⟨t, ws, rest, rfl, -⟩ := (((C47_reads h).2 vs v hv).1 a).mp hr
    rw [C04_texts_partial.2.2.2.2.1]
    have := hg hv _ (List.mem_append_right _ (List.mem_singleton.mpr rfl))
    simp only [asciiT_append, asciiT_cons] at this
    simp only [this]
  · intro ms v hr hv
    rw [C04_texts_partial.2.2.2.2.2.1 ms v hv]
    cases hgv : h.get s!!"server-timing" with
    | none => unfold ServerTiming.fromHeaders at hr; rw [show ServerTiming.name = s!!"server-timing" from rfl, hgv] at hr; cases hr
    | some vs =>
      have hf := ((C57_reads_partial h vs hgv).1 ms).mp hr
      intro m hm
      obtain ⟨e, he, ht⟩ := forall₂_left hf.flip m hm
      exact asciiT_entry ht (asciiT_listItems (hg hgv) e he)
  · intro v6 f h6 hr
    rw [asciiT_forwarded]
    unfold Forwarded.fromHeaders at hr
    obtain ⟨o, ho, hr⟩ := Res.bind_eq_ok_iff.mp hr
    unfold Forwarded.fromForwardedHeader at ho
    cases o with
    | some f' =>
      cases hr
      split at ho
      · rename_i vs hgv
        obtain ⟨v, hv, ho⟩ := Res.bind_eq_ok_iff.mp ho
        obtain ⟨f', hp, e⟩ := map_some_ok.mp ho
        cases e
        have ha : Ascii v := by
          cases vs with
          | nil => cases hv
          | cons x xs => cases hv; exact hg hgv v (by simp)
        obtain ⟨ps, hps, h1, h2, h3, h4⟩ := ((C49_reads_partial ha).1 f).mp hp
        have hall := asciiT_forwardedText hps ha
        have key : ∀ k (o : Option Str), valuesOf k ps = o.toList → ∀ v ∈ o, Ascii v := by
          intro k o ho v hv
          have : v ∈ valuesOf k ps := by rw [ho]; simpa using hv
          obtain ⟨p, hp, rfl⟩ := List.mem_map.mp this
          exact hall p (List.mem_filter.mp hp).1
        refine ⟨?_, key _ _ h2, key _ _ h3, key _ _ h4⟩
        intro v hv
        rw [h1] at hv
        obtain ⟨p, hp, rfl⟩ := List.mem_map.mp hv
        exact hall p (List.mem_filter.mp hp).1
      · cases ho
    | none =>
      have xv : ∀ n o, Forwarded.xValue h n = .ok o → ∀ v ∈ o, Ascii v := by
        intro n o ho v hv
        unfold Forwarded.xValue at ho
        split at ho
        · rename_i vs hgv
          obtain ⟨x, hx, e⟩ := map_some_ok.mp (show Res.map some _ = .ok (some v) by rw [ho]; exact congrArg _ hv)
          cases e
          cases vs with
          | nil => cases hx
          | cons y ys => cases hx; exact hg hgv _ (by simp)
        · cases ho; cases hv
      simp only [Forwarded.fromXHeaders] at hr
      obtain ⟨ff, h1, hr⟩ := Res.bind_eq_ok_iff.mp hr
      obtain ⟨b, h2, hr⟩ := Res.bind_eq_ok_iff.mp hr
      obtain ⟨p, h3, hr⟩ := Res.bind_eq_ok_iff.mp hr
      obtain ⟨ho', h4, hr⟩ := Res.bind_eq_ok_iff.mp hr
      split at hr
      · cases hr
        refine ⟨?_, xv _ _ h2, xv _ _ h4, xv _ _ h3⟩
        cases hx : Forwarded.xValue h Forwarded.X_FOR with
        | ok o =>
          rw [hx] at h1
          cases h1
          cases o with
          | none => intro v hv; cases hv
          | some t =>
            intro v hv
            obtain ⟨w, hw, rfl⟩ := List.mem_map.mp hv
            have ht := xv _ _ hx t rfl
            have hw' : Ascii (trim w) := asciiT_trim (ht.mono fun c hc => mem_of_mem_split hw hc)
            unfold Forwarded.xForEntry
            split
            · rename_i t' ht'
              rw [asciiT_append, asciiT_append]
              exact ⟨⟨by decide, h6 _ _ ht'⟩, by decide⟩
            · exact hw'
        | err e => rw [hx] at h1; cases h1
        | panic => rw [hx] at h1; cases h1
      · cases hr
  · intro e v hr hv
    rw [C04_texts_partial.1 e v hv]
    obtain ⟨vs, x, hx, hp⟩ := readLast_cases hr
    have := (((C33_parse_iff x).1 e).mp hp).1
    exact asciiT_etagText (this ▸ hg hx x (by simp))
  · intro m v hr hv
    cases hv
    obtain ⟨vs, x, hx, hp⟩ := readLast_cases hr
    cases hm : Mime.parse x with
    | ok m' => rw [hm] at hp; cases hp; exact asciiT_mimeParse hm (hg hx x (by simp))
    | err t => rw [hm] at hp; cases hp
    | panic => rw [hm] at hp; cases hp
  · intro a v hr hv
    rw [asciiT_acceptList hv]
    intro p hp
    unfold Accept.fromHeaders AcceptList.fromHeaders at hr
    split at hr
    · cases hr
    · rename_i vs hgv
      obtain ⟨x, hx, e⟩ := map_some_ok.mp hr
      cases e
      rcases accept_loop_parts _ _ _ hx p hp with h | ⟨t, ht, hpt⟩
      · cases h
      · obtain ⟨q, hq, e⟩ := map_some_ok.mp hpt
        cases e
        refine asciiT_mediaProposal hq (asciiT_trim ?_)
        obtain ⟨y, hy, ht⟩ := List.mem_flatMap.mp ht
        exact (asciiT_trim (hg hgv y (by rwa [iter_eq] at hy))).mono fun c hc => mem_of_mem_split ht hc

example : ∀ n vs, Headers.get (oneHeader s!!"accept" s!!"a/b;c=\"\\x\"") n = some vs → ∀ v ∈ vs, Ascii v := by
  intro n vs h v hv
  have := FMap.mem_of_get h
  rw [oneHeader] at this
  cases List.mem_singleton.mp this
  rw [List.mem_singleton.mp hv]
  decide

/-! ### Content security policies -/

/-- Everything in the policy is ASCII. -/
def CspAscii (c : Csp) : Prop :=
  (∀ p ∈ c.policy, Ascii p) ∧ ∀ e ∈ c.directives, Ascii e.1 ∧ ∀ s ∈ e.2, Ascii s

theorem asciiT_csp (c : Csp) : Ascii c.value.2 ↔ CspAscii c := by
  have hs : Ascii s!!" " := by decide
  have he : ∀ e : Str × List Str, Ascii (Csp.entry e) ↔ Ascii e.1 ∧ ∀ s ∈ e.2, Ascii s := by
    intro e
    unfold Csp.entry
    rw [asciiT_append, asciiT_append, asciiT_join hs]
    simp only [hs, and_true]
  have hm : ∀ p, p ∈ Csp.valueLoop c.policy c.directives ↔ p ∈ c.policy ++ c.directives.map Csp.entry :=
    fun p => (Csp.valueLoop_perm c.policy c.directives).mem_iff
  show Ascii (join s!!"; " (Csp.valueLoop c.policy c.directives)) ↔ _
  rw [asciiT_join (by decide)]
  simp only [hm, List.mem_append, List.mem_map]
  constructor
  · intro h
    exact ⟨fun p hp => h p (.inl hp), fun e hm => (he e).mp (h _ (.inr ⟨e, hm, rfl⟩))⟩
  · rintro ⟨h1, h2⟩ p (hp | ⟨e, hm, rfl⟩)
    · exact h1 p hp
    · exact (he e).mpr (h2 e hm)

theorem ascii_insert (m : FMap Str (List Str)) {d s : Str} (hd : Ascii d) :
    (∀ e ∈ FMap.set m d ((FMap.get m d).getD [] ++ [s]), Ascii e.1 ∧ ∀ s ∈ e.2, Ascii s) ↔
      (∀ e ∈ m, Ascii e.1 ∧ ∀ s ∈ e.2, Ascii s) ∧ Ascii s := by
  induction m with
  | nil => simp [FMap.set, FMap.get, hd]
  | cons e m ih =>
    obtain ⟨a, b⟩ := e
    unfold FMap.set FMap.get
    by_cases h : a = d
    · subst h
      simp only [if_true, Option.getD_some, List.forall_mem_cons, List.forall_mem_append, hd, true_and]
      constructor
      · rintro ⟨⟨h1, h2, -⟩, h3⟩; exact ⟨⟨h1, h3⟩, h2⟩
      · rintro ⟨⟨h1, h3⟩, h2⟩; exact ⟨⟨h1, h2, by simp⟩, h3⟩
    · simp only [if_neg h, List.forall_mem_cons]
      rw [ih]
      exact and_assoc.symm

/-- A policy is written in ASCII exactly when the sources and endpoints passed to it are ASCII. Missing for C04: that they are. -/
theorem C04_policy_partial (base : Csp) (hb : base = .new ∨ base = .default) (ops : List CspOp) :
    Ascii (CspOp.run base ops).value.2 ↔ ∀ op ∈ ops, ∀ t ∈ cspTexts op, Ascii t := by
  rw [asciiT_csp]
  have h0 : CspAscii base := by
    rcases hb with rfl | rfl
    · exact ⟨(fun p hp => nomatch hp), (fun e he => nomatch he)⟩
    · refine ⟨?_, (fun e he => nomatch he)⟩
      show ∀ p ∈ [s!!"script-src 'self'; object-src 'self'"], Ascii p
      decide
  have hdir : ∀ m : CspMethod, Ascii m.directive := by intro m; cases m <;> decide
  have step : ∀ c op, CspAscii (CspOp.step c op) ↔ CspAscii c ∧ ∀ t ∈ cspTexts op, Ascii t := by
    intro c op
    cases op with
    | add m s =>
      unfold CspAscii
      show (_ ∧ ∀ e ∈ FMap.set c.directives m.directive _, _) ↔ _
      rw [ascii_insert _ (hdir m)]
      constructor
      · rintro ⟨h1, h2, h3⟩
        refine ⟨⟨h1, h2⟩, fun t ht => ?_⟩
        rw [List.mem_singleton.mp ht]
        exact h3
      · rintro ⟨⟨h1, h2⟩, h3⟩
        exact ⟨h1, h2, h3 s (by simp [cspTexts])⟩
    | blockAllMixedContent =>
      show CspAscii { c with policy := c.policy ++ [_] } ↔ _
      simp only [CspAscii, List.forall_mem_append]
      exact ⟨fun h => ⟨⟨h.1.1, h.2⟩, (fun t ht => nomatch ht)⟩, fun h => ⟨⟨h.1.1, by decide⟩, h.1.2⟩⟩
    | upgradeInsecureRequests =>
      show CspAscii { c with policy := c.policy ++ [_] } ↔ _
      simp only [CspAscii, List.forall_mem_append]
      exact ⟨fun h => ⟨⟨h.1.1, h.2⟩, (fun t ht => nomatch ht)⟩, fun h => ⟨⟨h.1.1, by decide⟩, h.1.2⟩⟩
    | reportOnly =>
      show CspAscii { c with reportOnly := true } ↔ _
      simp [CspAscii, cspTexts]
    | reportTo es =>
      have hr : Ascii s!!"report-to " := by decide
      have : (∀ p ∈ es.filterMap (fun e => e.map fun j => s!!"report-to " ++ j), Ascii p) ↔
          ∀ t ∈ es.filterMap id, Ascii t := by
        constructor
        · intro h t ht
          have ht : some t ∈ es := by simpa using ht
          have := h (s!!"report-to " ++ t) (List.mem_filterMap.mpr ⟨some t, ht, rfl⟩)
          exact (asciiT_append.mp this).2
        · intro h p hp
          obtain ⟨e, he, hp⟩ := List.mem_filterMap.mp hp
          cases e with
          | none => cases hp
          | some t =>
            cases hp
            exact asciiT_append.mpr ⟨hr, h t (by simpa using he)⟩
      show CspAscii { c with policy := c.policy ++ _ } ↔ _
      simp only [CspAscii, cspTexts, List.forall_mem_append, this]
      exact ⟨fun h => ⟨⟨h.1.1, h.2⟩, h.1.2⟩, fun h => ⟨⟨h.1.1, h.2⟩, h.1.2⟩⟩
  induction ops using List.reverseRecOn with
  | nil => simp [CspOp.run, h0]
  | append_singleton ops op ih =>
    rw [Csp.run_append, show CspOp.run (CspOp.run base ops) [op] = CspOp.step (CspOp.run base ops) op from rfl, step]
    simp only [List.forall_mem_append]
    exact (and_congr_left' ih).trans (and_congr_right' (by simp))

example : ¬ Ascii (CspOp.run .new [.add .imgSrc s!!"é.example"]).value.2 := by decide +kernel
example : Ascii (CspOp.run .default [.add .imgSrc s!!"a.example", .upgradeInsecureRequests]).value.2 := by decide +kernel

end HT
