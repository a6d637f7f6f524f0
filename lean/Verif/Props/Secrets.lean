import Verif.Model.DebugWhole
import Verif.Spec.Secrets
import Verif.Props.DebugTyped
import Verif.Props.Tables

/-!
C124: what logging a request, response or credentials with `{:?}` discloses.
-/

namespace HT
open Spec

theorem headers_delimited (pr : Char → Bool) : SelfDelimited (Headers.debug pr) := by
  have hf : SelfDelimited fun e : HeaderName × HeaderValues =>
      HeaderName.debug pr e.1 ++ s!!": " ++ HeaderValues.debug pr e.2 := by
    rintro ⟨n, vs⟩ ⟨n', vs'⟩ x x' h
    simp only [List.append_assoc] at h
    obtain ⟨rfl, h1⟩ := debugStr_delimited pr _ _ _ _ h
    obtain ⟨rfl, h2⟩ := values_delimited pr _ _ _ _ (List.append_cancel_left h1)
    exact ⟨rfl, h2⟩
  intro m m' x x' h
  refine join_delimited hf (c := '}') (by decide) (fun e => ⟨'"', _, rfl, by decide⟩) m m' x x' ?_
  simp only [Headers.debug, debugMap, List.map_map, List.append_assoc, List.cons_append, List.nil_append,
    List.cons.injEq, true_and] at h
  simpa [Function.comp_def] using h

theorem told_version {P : Version → Prop} : Told P Version.debug :=
  told_word (fun a _ => by cases a <;> decide) fun a a' _ _ h => by
    cases a <;> cases a' <;> first | rfl | (revert h; decide)

theorem told_status {P : StatusCode → Prop} : Told P StatusCode.display := by
  intro a a' x x' _ _ _ _ h
  simp only [StatusCode.display, List.append_assoc, List.cons_append, dec] at h
  obtain ⟨h1, h2⟩ := number_delimited (by omega) (by omega) (fun k => not_mem_dec (by decide) k) h
  have e : a = a' := by
    have h3 := (StatusCode.tryFrom_iff _ a).mpr rfl
    rw [h1, (StatusCode.tryFrom_iff _ a').mpr rfl] at h3
    exact (Option.some.inj h3).symm
  subst e
  exact ⟨rfl, List.append_cancel_left (List.cons.inj h2).2⟩

theorem told_flag (t f : Str) (ht : t = s!!"Some(Sender { .. })" ∨ t = s!!"Some(Receiver { .. })") (hf : f = s!!"None")
    {P : Bool → Prop} : Told P fun b => bif b then t else f := by
  intro a a' x x' _ _ _ _ h
  subst hf
  rcases ht with rfl | rfl <;> cases a <;> cases a' <;> simp at h ⊢ <;> exact h

theorem told_sender {P : Bool → Prop} : Told P debugSender :=
  told_map (told_flag _ _ (.inl rfl) rfl (P := Any)) id (fun _ _ e => e) (fun _ _ => trivial) fun b => by cases b <;> rfl

theorem told_receiver {P : Bool → Prop} : Told P debugReceiver :=
  told_map (told_flag _ _ (.inr rfl) rfl (P := Any)) id (fun _ _ e => e) (fun _ _ => trivial) fun b => by cases b <;> rfl

/-- What is printed of a body. -/
theorem told_body : Told Any fun p : Option Nat × Nat => (Body.debug ⟨(), none, p.1, p.2⟩) :=
  told_map (told_pre s!!"Body { reader: \"<hidden>\", length: " (told_suf (c := ' ') (by decide) s!!"}"
    (told_seq (c := ',') (by decide) s!!" bytes_read: " (told_opt (told_dec (P := Any))) (told_dec (P := Any))))) id
    (fun _ _ e => e) (fun _ _ => ⟨fun _ _ => trivial, trivial⟩) fun p => by
      obtain ⟨l, n⟩ := p
      cases l <;> simp [Body.debug, debugOptNat, debugOpt, debugTuple]

theorem body_same {σ : Type} (b : Body σ) : b.debug = Body.debug ⟨(), none, b.length, b.bytesRead⟩ := rfl

/-- The fields of a printed structure from some field on. -/
def fieldsText (fs : List (Str × Str)) : Str := join s!!", " (fs.map fun e => e.1 ++ s!!": " ++ e.2) ++ s!!" }"

theorem struct_fields {n : Str} {f f' : Str × Str} {fs fs' : List (Str × Str)}
    (h : debugStruct n (f :: fs) = debugStruct n (f' :: fs')) : fieldsText (f :: fs) = fieldsText (f' :: fs') := by
  simp only [debugStruct, List.append_assoc] at h
  simpa only [fieldsText, List.append_assoc] using List.append_cancel_left (List.append_cancel_left h)

theorem fields_next {α : Type} {P : α → Prop} {f : α → Str} (t : Told P f) {m : Str} {a a' : α} (ha : P a) (ha' : P a')
    {g g' : Str × Str} {fs fs' : List (Str × Str)}
    (h : fieldsText ((m, f a) :: g :: fs) = fieldsText ((m, f a') :: g' :: fs')) :
    a = a' ∧ fieldsText (g :: fs) = fieldsText (g' :: fs') := by
  simp only [fieldsText, List.map_cons, join, List.append_assoc] at h
  obtain ⟨h1, h2⟩ := t _ _ _ _ ha ha' (stop_cons (by decide) _) (stop_cons (by decide) _)
    (List.append_cancel_left (List.append_cancel_left h))
  exact ⟨h1, by simpa only [fieldsText, List.map_cons, List.append_assoc] using List.append_cancel_left (as := s!!", ") h2⟩

theorem fields_last {α : Type} {P : α → Prop} {f : α → Str} (t : Told P f) {m : Str} {a a' : α} (ha : P a) (ha' : P a')
    (h : fieldsText [(m, f a)] = fieldsText [(m, f a')]) : a = a' := by
  simp only [fieldsText, List.map_cons, List.map_nil, join, List.append_assoc] at h
  exact (t _ _ _ _ ha ha' (stop_cons (by decide) _) (stop_cons (by decide) _)
    (List.append_cancel_left (List.append_cancel_left h))).1

theorem told_extensions : Told Any fun _ : Unit => s!!"Extensions" :=
  told_word (fun _ _ => by decide) fun _ _ _ _ _ => rfl

theorem any_opt {α : Type} (o : Option α) : ∀ a ∈ o, Any a := fun _ _ => trivial

theorem ends_eq {e e' : Ends} (h1 : e.sender = e'.sender) (h2 : e.receiver = e'.receiver) (h3 : e.flag = e'.flag) : e = e' := by
  cases e; cases e'; simp only at h1 h2 h3; rw [h1, h2, h3]

/-- C124: two requests print the same exactly if all but the content and media type of their bodies and the state
attached to them is the same. So the log tells method, URL, every header, version, both addresses and the declared length,
and tells nothing of the rest. Assumed of the printed URL: it tells the URL and where it ends. -/
theorem C124_request {Url σ κ : Type} {T : κ → Type} (pr : Char → Bool) {pu : Url → Str} (hu : SelfDelimited pu)
    (r r' : ReqVal Url (Body σ) T) : r.debug pr pu = r'.debug pr pu ↔ ReqPublic r r' := by
  constructor
  · intro h
    obtain ⟨h1, h⟩ := fields_next (told_method (P := Any)) trivial trivial (struct_fields h)
    obtain ⟨h2, h⟩ := fields_next (hu.told (P := Any)) trivial trivial h
    obtain ⟨h3, h⟩ := fields_next ((headers_delimited pr).told (P := Any)) trivial trivial h
    obtain ⟨h4, h⟩ := fields_next (told_opt (told_version (P := Any))) (any_opt _) (any_opt _) h
    obtain ⟨h5, h⟩ := fields_next told_body (a := (r.msg.body.length, r.msg.body.bytesRead))
      (a' := (r'.msg.body.length, r'.msg.body.bytesRead)) trivial trivial h
    obtain ⟨h6, h⟩ := fields_next (told_opt (told_str pr (P := Any))) (any_opt _) (any_opt _) h
    obtain ⟨h7, h⟩ := fields_next (told_opt (told_str pr (P := Any))) (any_opt _) (any_opt _) h
    obtain ⟨-, h⟩ := fields_next (told_extensions) (a := ()) (a' := ()) trivial trivial h
    obtain ⟨h8, h⟩ := fields_next (told_sender (P := Any)) trivial trivial h
    obtain ⟨h9, h⟩ := fields_next (told_receiver (P := Any)) trivial trivial h
    have h10 := fields_last (told_bool (P := Any)) trivial trivial h
    exact ⟨h1, h2, h3, h4, congrArg Prod.fst h5, congrArg Prod.snd h5, h6, h7, ends_eq h8 h9 h10⟩
  · rintro ⟨h1, h2, h3, h4, h5, h6, h7, h8, h9⟩
    simp only [ReqVal.debug, h1, h2, h3, h4, h7, h8, h9, body_same, h5, h6, Extensions.debug]

example (pr : Char → Bool) : (⟨.get, s!!"u", ⟨[], Body.fromString s!!"a"⟩, none, none, none, Extensions.new, .fresh⟩ :
    ReqVal Str (Body (List Byte)) (fun _ : Unit => Str)).debug pr (debugStr pr) ≠
    (⟨.put, s!!"u", ⟨[], Body.fromString s!!"a"⟩, none, none, none, Extensions.new, .fresh⟩ :
    ReqVal Str (Body (List Byte)) (fun _ : Unit => Str)).debug pr (debugStr pr) := by
  rw [Ne, C124_request pr (debugStr_delimited pr)]
  exact fun h => by cases h.1

/-- C124: the same for responses. -/
theorem C124_response {σ κ : Type} {T : κ → Type} (pr : Char → Bool) (r r' : RespVal (Body σ) T) :
    r.debug pr = r'.debug pr ↔ RespPublic r r' := by
  constructor
  · intro h
    obtain ⟨h1, h⟩ := fields_next (told_status (P := Any)) trivial trivial (struct_fields h)
    obtain ⟨h2, h⟩ := fields_next ((headers_delimited pr).told (P := Any)) trivial trivial h
    obtain ⟨h3, h⟩ := fields_next (told_opt (told_version (P := Any))) (any_opt _) (any_opt _) h
    obtain ⟨t1, h⟩ := fields_next (told_bool (P := Any)) trivial trivial h
    obtain ⟨t2, h⟩ := fields_next (told_sender (P := Any)) trivial trivial h
    obtain ⟨t3, h⟩ := fields_next (told_receiver (P := Any)) trivial trivial h
    obtain ⟨u2, h⟩ := fields_next (told_sender (P := Any)) trivial trivial h
    obtain ⟨u3, h⟩ := fields_next (told_receiver (P := Any)) trivial trivial h
    obtain ⟨u1, h⟩ := fields_next (told_bool (P := Any)) trivial trivial h
    obtain ⟨h5, h⟩ := fields_next told_body (a := (r.msg.body.length, r.msg.body.bytesRead))
      (a' := (r'.msg.body.length, r'.msg.body.bytesRead)) trivial trivial h
    obtain ⟨-, h⟩ := fields_next (told_extensions) (a := ()) (a' := ()) trivial trivial h
    obtain ⟨h6, h⟩ := fields_next (told_opt (told_str pr (P := Any))) (any_opt _) (any_opt _) h
    have h7 := fields_last (told_opt (told_str pr (P := Any))) (any_opt _) (any_opt _) h
    exact ⟨h1, h2, h3, congrArg Prod.fst h5, congrArg Prod.snd h5, h6, h7, ends_eq t2 t3 t1, ends_eq u2 u3 u1⟩
  · rintro ⟨h1, h2, h3, h4, h5, h6, h7, h8, h9⟩
    simp only [RespVal.debug, h1, h2, h3, h6, h7, h8, h9, body_same, h4, h5, Extensions.debug]

/-- Two different secrets of one length in the bodies, and the same log line. -/
example (pr : Char → Bool) : (⟨.get, s!!"u", ⟨[], Body.fromString s!!"pin=1234"⟩, none, none, none, Extensions.new, .fresh⟩ :
    ReqVal Str (Body (List Byte)) (fun _ : Unit => Str)).debug pr (debugStr pr) =
    (⟨.get, s!!"u", ⟨[], Body.fromString s!!"pin=9876"⟩, none, none, none, Extensions.new, .fresh⟩ :
    ReqVal Str (Body (List Byte)) (fun _ : Unit => Str)).debug pr (debugStr pr) := by
  rw [C124_request pr (debugStr_delimited pr)]
  refine ⟨rfl, rfl, rfl, rfl, ?_, rfl, rfl, rfl, rfl⟩
  decide
example (pr : Char → Bool) : (⟨.ok, ⟨[], Body.fromString s!!"a"⟩, none, .fresh, .fresh, Extensions.new, none, some s!!"b"⟩ :
    RespVal (Body (List Byte)) (fun _ : Unit => Str)).debug pr ≠
    (⟨.ok, ⟨[], Body.fromString s!!"a"⟩, none, .fresh, .fresh, Extensions.new, some s!!"b", none⟩ :
    RespVal (Body (List Byte)) (fun _ : Unit => Str)).debug pr := by
  rw [Ne, C124_response]
  rintro ⟨-, -, -, -, -, h, -⟩
  simp at h

theorem headers_line (pr : Char → Bool) (m : Headers) : OneLine (m.debug pr) := (C90_one_line pr).2.2.2 m

theorem body_line {σ : Type} (b : Body σ) : OneLine b.debug := by
  refine oneLine_append (oneLine_append (oneLine_append (oneLine_append (by decide) ?_) (by decide)) (dec_line _)) (by decide)
  cases b.length with
  | none => exact (by decide : OneLine s!!"None")
  | some n => exact oneLine_append (oneLine_append (by decide) (dec_line n)) (by decide)

theorem status_line (c : StatusCode) : OneLine c.display := by
  have h : ∀ c ∈ StatusCode.all, OneLine c.display := by decide +kernel
  exact h c (by cases c <;> decide)

theorem version_line (v : Version) : OneLine v.debug := by cases v <;> decide

/-- C124: a message never breaks the line of the log it is written to, whatever a peer put into it. Assumed of the
printed URL: it is one line. -/
theorem C124_one_line {Url σ κ : Type} {T : κ → Type} (pr : Char → Bool) {pu : Url → Str} (hu : ∀ u, OneLine (pu u)) :
    (∀ r : ReqVal Url (Body σ) T, OneLine (r.debug pr pu)) ∧ (∀ r : RespVal (Body σ) T, OneLine (r.debug pr)) ∧
      ∀ t : Headers, OneLine (Trailers.debug pr t) := by
  have hs : ∀ b, OneLine (debugSender b) := by decide
  have hr : ∀ b, OneLine (debugReceiver b) := by decide
  refine ⟨fun r => struct_line (by decide) ?_, fun r => struct_line (by decide) ?_, fun t => struct_line (by decide) ?_⟩
  all_goals simp only [List.forall_mem_cons, List.not_mem_nil, false_implies, implies_true, and_true]
  · exact ⟨⟨by decide, method_line _⟩, ⟨by decide, hu _⟩, ⟨by decide, headers_line pr _⟩, ⟨by decide, opt_line version_line _⟩,
      ⟨by decide, body_line _⟩, ⟨by decide, opt_line (debugStr_line pr) _⟩, ⟨by decide, opt_line (debugStr_line pr) _⟩,
      ⟨by decide, (by decide : OneLine s!!"Extensions")⟩, ⟨by decide, hs _⟩, ⟨by decide, hr _⟩, by decide, bool_line _⟩
  · exact ⟨⟨by decide, status_line _⟩, ⟨by decide, headers_line pr _⟩, ⟨by decide, opt_line version_line _⟩,
      ⟨by decide, bool_line _⟩, ⟨by decide, hs _⟩, ⟨by decide, hr _⟩, ⟨by decide, hs _⟩, ⟨by decide, hr _⟩,
      ⟨by decide, bool_line _⟩, ⟨by decide, body_line _⟩, ⟨by decide, (by decide : OneLine s!!"Extensions")⟩,
      ⟨by decide, opt_line (debugStr_line pr) _⟩, by decide, opt_line (debugStr_line pr) _⟩
  · exact ⟨by decide, headers_line pr _⟩

example (pr : Char → Bool) : OneLine ((⟨.get, s!!"u\n", ⟨[(s!!"a", [s!!"b\r\nlogged: no"])], Body.fromString s!!"x"⟩, none, none,
    some s!!"\n", Extensions.new, .fresh⟩ : ReqVal Str (Body (List Byte)) (fun _ : Unit => Str)).debug pr (debugStr pr)) :=
  (C124_one_line pr (debugStr_line pr)).1 _

theorem plain_debug (pr : Char → Bool) {s : Str} (h : Plain s) : debugStr pr s = ['"'] ++ s ++ ['"'] := by
  have : s.flatMap (escapeDebug pr) = s := by
    induction s with
    | nil => rfl
    | cons c s ih =>
      have hc := h c List.mem_cons_self
      rw [List.flatMap_cons, ih fun d hd => h d (List.mem_cons_of_mem _ hd)]
      have e : escapeDebug pr c = [c] := by
        have h0 : c.toNat ≠ 0 := by omega
        have ht : c ≠ '\t' := by rintro rfl; exact absurd hc.1 (by decide)
        have hr : c ≠ '\r' := by rintro rfl; exact absurd hc.1 (by decide)
        have hn : c ≠ '\n' := by rintro rfl; exact absurd hc.1 (by decide)
        simp only [escapeDebug, if_neg h0, if_neg ht, if_neg hr, if_neg hn, if_neg hc.2.2.1, if_neg hc.2.2.2]
        rw [if_pos (.inl ⟨hc.1, hc.2.1⟩)]
      rw [e]; rfl
  rw [debugStr, this]

theorem readIn_trans {a b c : Str} (h : ReadIn a b) (h' : ReadIn b c) : ReadIn a c := by
  obtain ⟨x, y, rfl⟩ := h
  obtain ⟨x', y', rfl⟩ := h'
  exact ⟨x' ++ x, y ++ y', by simp only [List.append_assoc]⟩

theorem readIn_join {s sep : Str} : ∀ {l : List Str}, s ∈ l → ReadIn s (join sep l)
  | [x], h => by
    rw [List.mem_singleton.mp h]; exact ⟨[], [], by simp [join]⟩
  | x :: y :: l, h => by
    rcases List.mem_cons.mp h with rfl | h
    · exact ⟨[], sep ++ join sep (y :: l), by simp [join]⟩
    · obtain ⟨a, b, e⟩ := readIn_join (sep := sep) h
      exact ⟨x ++ sep ++ a, b, by simp only [join, e, List.append_assoc]⟩

theorem readIn_values (pr : Char → Bool) {v : HeaderValue} {vs : HeaderValues} (hv : v ∈ vs) (h : Plain v) :
    ReadIn v (HeaderValues.debug pr vs) := by
  have h0 : ReadIn v (HeaderValue.debug pr v) := ⟨_, _, plain_debug pr h⟩
  by_cases h1 : ∃ w, vs = [w]
  · obtain ⟨w, rfl⟩ := h1
    rw [← List.mem_singleton.mp hv]; exact h0
  · rw [debug_of_ne fun w e => h1 ⟨w, e⟩]
    exact readIn_trans h0 (readIn_trans (readIn_join (sep := s!!", ") (List.mem_map_of_mem hv)) ⟨['['], [']'], rfl⟩)

theorem readIn_headers (pr : Char → Bool) {n : HeaderName} {vs : HeaderValues} {m : Headers} (hm : (n, vs) ∈ m)
    {v : HeaderValue} (hv : v ∈ vs) (h : Plain v) : ReadIn v (Headers.debug pr m) := by
  refine readIn_trans (readIn_values pr hv h) (readIn_trans ⟨HeaderName.debug pr n ++ s!!": ", [], ?_⟩
    (readIn_trans (readIn_join (sep := s!!", ") (l := (m.map fun e => (HeaderName.debug pr e.1, HeaderValues.debug pr e.2)).map
      fun e => e.1 ++ s!!": " ++ e.2) (List.mem_map_of_mem (List.mem_map_of_mem hm))) ⟨['{'], ['}'], rfl⟩))
  simp only [List.append_nil]

theorem readIn_struct {n m v : Str} {fs : List (Str × Str)} (h : (m, v) ∈ fs) : ReadIn v (debugStruct n fs) := by
  cases fs with
  | nil => exact absurd h List.not_mem_nil
  | cons f fs =>
    exact readIn_trans ⟨m ++ s!!": ", [], by simp only [List.append_nil]⟩ (readIn_trans (readIn_join (sep := s!!", ")
      (List.mem_map_of_mem (f := fun e : Str × Str => e.1 ++ s!!": " ++ e.2) h)) ⟨n ++ s!!" { ", s!!" }", rfl⟩)

/-- C124, fails for secrets outside bodies: a password, a token, and every value of every header, `authorization` and
`cookie` among them, stand in the log as they are. -/
theorem C124_violated_credentials {Url σ κ : Type} {T : κ → Type} (pr : Char → Bool) (pu : Url → Str) :
    (∀ a : BasicAuth, Plain a.password → ReadIn a.password (a.debug pr)) ∧
    (∀ a : Authorization, Plain a.credentials → ReadIn a.credentials (a.debug pr)) ∧
    (∀ (r : ReqVal Url (Body σ) T) n vs v, (n, vs) ∈ r.msg.headers → v ∈ vs → Plain v → ReadIn v (r.debug pr pu)) ∧
    (∀ (r : RespVal (Body σ) T) n vs v, (n, vs) ∈ r.msg.headers → v ∈ vs → Plain v → ReadIn v (r.debug pr)) ∧
    ∀ (t : Headers) n vs v, (n, vs) ∈ t → v ∈ vs → Plain v → ReadIn v (Trailers.debug pr t) :=
  ⟨fun _ h => readIn_trans ⟨_, _, plain_debug pr h⟩ (readIn_struct (m := s!!"password") (by simp)),
    fun _ h => readIn_trans ⟨_, _, plain_debug pr h⟩ (readIn_struct (m := s!!"credentials") (by simp)),
    fun _ _ _ _ hm hv h => readIn_trans (readIn_headers pr hm hv h) (readIn_struct (m := s!!"headers") (by simp)),
    fun _ _ _ _ hm hv h => readIn_trans (readIn_headers pr hm hv h) (readIn_struct (m := s!!"headers") (by simp)),
    fun _ _ _ _ hm hv h => readIn_trans (readIn_headers pr hm hv h) (readIn_struct (m := s!!"headers") (by simp))⟩

example : ReadIn s!!"hunter2" (BasicAuth.debug (fun _ => false) ⟨s!!"nori", s!!"hunter2"⟩) :=
  (C124_violated_credentials (Url := Unit) (σ := Unit) (T := fun _ : Unit => Unit) _ (fun _ => [])).1 _ (by decide)

/-- C124: the names printed for methods, schemes, directives, codings and versions are those of the protocol up to case and
punctuation; of brotli only the beginning is, and the versions 2 and 3 are printed with a minor number. -/
theorem C124_names :
    (∀ m : Method, letters m.debug = letters m.asStr) ∧ (∀ s : Scheme, letters s.debug = letters s.toStr) ∧
    (∀ d : ClearDirective, letters d.debug = letters d.asStr) ∧
    (∀ d : CacheDirective, letters (d.debug.takeWhile (· ≠ '(')) = letters (d.display.takeWhile (· ≠ '='))) ∧
    (∀ e : Encoding, letters e.display <+: letters e.debug ∧ (e ≠ .brotli → letters e.debug = letters e.display)) ∧
    (∀ e : TEncoding, letters e.display <+: letters e.debug ∧ (e ≠ .brotli → letters e.debug = letters e.display)) ∧
    ∀ v : Version, letters v.asStr <+: letters v.debug ∧ (letters v.debug).length = 6 := by
  refine ⟨fun m => ?_, fun s => by cases s <;> decide, fun d => by cases d <;> decide, fun d => ?_,
    fun e => by cases e <;> decide, fun e => by cases e <;> decide, fun v => by cases v <;> decide⟩
  · have h : ∀ m ∈ Method.all, letters m.debug = letters m.asStr := by decide +kernel
    exact h m (method_all m)
  · cases d with
    | maxStale o => cases o <;> simp [CacheDirective.debug, CacheDirective.display, debugTuple] <;> decide
    | _ => first
      | decide
      | (simp [CacheDirective.debug, CacheDirective.display, debugTuple]; decide)

example : letters Method.mkCalendar.debug = s!!"mkcalendar" ∧ letters Scheme.scramSha1.debug = s!!"scramsha1" := by decide

theorem join_has {x : Str} {xs : List Str} (h : x ∈ xs) :
    ∃ a b, s!!" " ++ join s!!", " xs = a ++ s!!" " ++ x ++ b ∧ (s!!", " <+: b ∨ b = []) := by
  induction xs with
  | nil => simp at h
  | cons y ys ih =>
    cases ys with
    | nil =>
      obtain rfl : x = y := by simpa using h
      exact ⟨[], [], by simp [join], .inr rfl⟩
    | cons z zs =>
      rcases List.mem_cons.mp h with rfl | h
      · exact ⟨[], s!!", " ++ join s!!", " (z :: zs), by simp [join], .inl ⟨_, rfl⟩⟩
      · obtain ⟨a, b, e, hb⟩ := ih h
        refine ⟨s!!" " ++ y ++ s!!"," ++ a, b, ?_, hb⟩
        have e' := congrArg (fun t => s!!" " ++ y ++ s!!"," ++ t) e
        simpa [join] using e'

theorem struct_labelled {name l v : Str} {fs : List (Str × Str)} (h : (l, v) ∈ fs) : Labelled l v (debugStruct name fs) := by
  obtain ⟨a, b, e, hb⟩ := join_has (List.mem_map_of_mem (f := fun e : Str × Str => e.1 ++ s!!": " ++ e.2) h)
  cases fs with
  | nil => simp at h
  | cons f fs =>
    refine ⟨name ++ s!!" {" ++ a, b ++ s!!" }", ?_, ?_⟩
    · have e' := congrArg (fun t => name ++ s!!" {" ++ t ++ s!!" }") e
      simpa [debugStruct] using e'
    · rcases hb with ⟨c, rfl⟩ | rfl
      · exact .inl ⟨c ++ s!!" }", by simp⟩
      · exact .inr rfl

/-- C124: what the log tells stands behind the name of what it is: the addresses are not taken for each other, nor the state of
trailers for that of an upgrade. -/
theorem C124_labels {Url σ κ : Type} {T : κ → Type} (pr : Char → Bool) (pu : Url → Str) :
    (∀ r : ReqVal Url (Body σ) T,
      Labelled s!!"method" r.method.debug (r.debug pr pu) ∧ Labelled s!!"url" (pu r.url) (r.debug pr pu) ∧
      Labelled s!!"headers" (r.msg.headers.debug pr) (r.debug pr pu) ∧
      Labelled s!!"version" (debugOpt Version.debug r.version) (r.debug pr pu) ∧
      Labelled s!!"body" r.msg.body.debug (r.debug pr pu) ∧
      Labelled s!!"local_addr" (debugOpt (debugStr pr) r.localAddr) (r.debug pr pu) ∧
      Labelled s!!"peer_addr" (debugOpt (debugStr pr) r.peerAddr) (r.debug pr pu) ∧
      Labelled s!!"has_trailers" (debugBool r.trailers.flag) (r.debug pr pu) ∧
      Labelled s!!"trailers_sender" (debugSender r.trailers.sender) (r.debug pr pu) ∧
      Labelled s!!"trailers_receiver" (debugReceiver r.trailers.receiver) (r.debug pr pu)) ∧
    ∀ r : RespVal (Body σ) T,
      Labelled s!!"status" r.status.display (r.debug pr) ∧ Labelled s!!"headers" (r.msg.headers.debug pr) (r.debug pr) ∧
      Labelled s!!"version" (debugOpt Version.debug r.version) (r.debug pr) ∧
      Labelled s!!"body" r.msg.body.debug (r.debug pr) ∧
      Labelled s!!"local_addr" (debugOpt (debugStr pr) r.localAddr) (r.debug pr) ∧
      Labelled s!!"peer_addr" (debugOpt (debugStr pr) r.peerAddr) (r.debug pr) ∧
      Labelled s!!"has_trailers" (debugBool r.trailers.flag) (r.debug pr) ∧
      Labelled s!!"trailers_sender" (debugSender r.trailers.sender) (r.debug pr) ∧
      Labelled s!!"trailers_receiver" (debugReceiver r.trailers.receiver) (r.debug pr) ∧
      Labelled s!!"has_upgrade" (debugBool r.upgrade.flag) (r.debug pr) ∧
      Labelled s!!"upgrade_sender" (debugSender r.upgrade.sender) (r.debug pr) ∧
      Labelled s!!"upgrade_receiver" (debugReceiver r.upgrade.receiver) (r.debug pr) := by
  refine ⟨fun r => ?_, fun r => ?_⟩
  · refine ⟨?_, ?_, ?_, ?_, ?_, ?_, ?_, ?_, ?_, ?_⟩ <;>
      exact struct_labelled (by simp only [List.mem_cons, Prod.mk.injEq, true_and, List.cons.injEq, true_or, or_true])
  · refine ⟨?_, ?_, ?_, ?_, ?_, ?_, ?_, ?_, ?_, ?_, ?_, ?_⟩ <;>
      exact struct_labelled (by simp only [List.mem_cons, Prod.mk.injEq, true_and, List.cons.injEq, true_or, or_true])

example (pr : Char → Bool) : debugOpt (debugStr pr) (some s!!"10.0.0.1:80") = s!!"Some(\"10.0.0.1:80\")" ∧
    debugOpt (debugStr pr) none = s!!"None" := ⟨rfl, rfl⟩

end HT
