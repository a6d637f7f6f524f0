import Verif.Spec.Adapter
import Verif.Props.Hyperium
import Verif.Model.Whole

/-! Messages of the crate `http` converted and converted back, and the other way: C116. -/

namespace HT
open Spec

theorem through_same {α : Type} {mime : Option α} {m m' : FMap Str (List α)} (hne : ∀ n vs, FMap.get m n = some vs → vs ≠ [])
    (h : Through mime m m') : SameHeaders m m' ↔ GetsThrough mime m := by
  unfold SameHeaders GetsThrough
  have hn : ∀ n, n ≠ s!!"content-type" → FMap.get m' n = match FMap.get m n with
      | some (v :: _) => some [v]
      | _ => none := by
    intro n hn
    rw [h n, if_neg hn]
    rcases FMap.get m n with _ | _ | ⟨v, vs⟩ <;> rfl
  have hc := h s!!"content-type"
  rw [if_pos rfl] at hc
  constructor
  · intro hs
    constructor
    · intro n vs hv hct
      have h1 := hn n hct
      rw [hs n, hv] at h1
      rcases vs with _ | ⟨v, vs⟩
      · exact absurd rfl (hne n _ hv)
      · exact ⟨v, Option.some.inj h1⟩
    · rw [hs s!!"content-type"] at hc
      cases mime with
      | none =>
        intro vs hv
        rw [hv] at hc
        rcases vs with _ | ⟨v, vs⟩
        · exact absurd rfl (hne _ _ hv)
        · exact ⟨v, Option.some.inj hc⟩
      | some d =>
        show FMap.get m s!!"content-type" = _
        cases hg : FMap.get m s!!"content-type" with
        | none => rw [hg] at hc; cases hc
        | some vs =>
          rw [hg] at hc
          rcases vs with _ | ⟨v, vs⟩
          · exact absurd rfl (hne _ _ hg)
          · have := Option.some.inj hc
            injection this with e1 e2
            rw [e1, e2, e1]
  · rintro ⟨h1, h2⟩ n
    by_cases hct : n = s!!"content-type"
    · rw [hct, hc]
      cases mime with
      | none =>
        cases hg : FMap.get m s!!"content-type" with
        | none => rfl
        | some vs => obtain ⟨v, rfl⟩ := h2 vs hg; rfl
      | some d =>
        rw [show FMap.get m s!!"content-type" = some [d, d] from h2]
    · rw [hn n hct]
      cases hg : FMap.get m n with
      | none => rfl
      | some vs => obtain ⟨v, rfl⟩ := h1 n vs hg hct; rfl

namespace Hyper

theorem addHeaders_lower (l : List (Option Str × List Byte)) (h h' : Headers) (hw : LowerMap h)
    (he : addHeaders l h = some (.ok h')) : LowerMap h' := by
  induction l generalizing h with
  | nil => cases he; exact hw
  | cons e l ih =>
    obtain ⟨n, v⟩ := e
    rw [addHeaders] at he
    cases hd : utf8Decode v with
    | none => rw [hd] at he; cases he
    | some s =>
      rw [hd] at he
      cases n with
      | none => exact ih h hw he
      | some n =>
        simp only [append_value] at he
        refine ih _ ⟨FMap.wf_set hw.1 _ _, fun e hm => ?_⟩ he
        rcases FMap.mem_set hm with rfl | hm
        · exact ⟨Mime.noUpper_lower n, by simp⟩
        · exact hw.2 e hm

theorem httpText_of {v : List Byte} {s : Str} (hs : IsText v s)
    (hv : ∀ b ∈ v, b.val = 9 ∨ (32 ≤ b.val ∧ b.val ≠ 127)) : HttpText s := by
  by_contra hno
  have := (valueOf_eq s).2 hno
  unfold valueOf at this
  rw [if_pos] at this
  · cases this
  · rw [show utf8Encode s = v from hs, List.all_eq_true]
    intro b hb
    rcases hv b hb with h | ⟨h1, h2⟩
    · simp [h]
    · simp [h1, h2]

theorem get_asBytes (h : Headers) (n : Str) : FMap.get (asBytes h) n = (FMap.get h n).map fun vs => vs.map utf8Encode := by
  induction h with
  | nil => rfl
  | cons e h ih =>
    obtain ⟨k, vs⟩ := e
    show FMap.get ((k, vs.map utf8Encode) :: asBytes h) n = _
    rw [FMap.get, FMap.get]
    split
    · rfl
    · exact ih

theorem accepted_iff {ok : Str → Bool} {h : Headers} (hw : LowerMap h) :
    Accepted ok h ↔ ∀ n vs, FMap.get h n = some vs → ok n = true ∧ ∀ v ∈ vs, HttpText v := by
  constructor
  · intro ha n vs hg
    exact ha (n, vs) (FMap.mem_of_get hg)
  · intro ha e he
    exact ha e.1 e.2 ((FMap.get_eq_some_iff hw.1 e.1 e.2).mpr he)

/-- `BaseAndFirst` as one equation. -/
theorem base_through {m : HMap} {h : Headers} {mime : Option Str} (hm : HttpMap m) (ht : AllText m)
    (hb : ∀ n, BaseAndFirst m (if n = s!!"content-type" then mime.map fun d => [d] else none) h n) (n : Str) :
    (FMap.get m n = none ∧ FMap.get h n = if n = s!!"content-type" then mime.map fun d => [d] else none) ∨
    ∃ v vs s, FMap.get m n = some (v :: vs) ∧ IsText v s ∧
      FMap.get h n = some (((if n = s!!"content-type" then mime.map fun d => [d] else none).getD []) ++ [s]) := by
  obtain ⟨h1, h2⟩ := hb n
  cases hg : FMap.get m n with
  | none => exact .inl ⟨rfl, h1 ((FMap.get_eq_none_iff m n).mp hg)⟩
  | some vs =>
    have hmem := FMap.mem_of_get hg
    rcases vs with _ | ⟨v, vs⟩
    · exact absurd rfl (hm.2 _ hmem).2.2
    · obtain ⟨s, hs⟩ := ht _ hmem v (by simp)
      exact .inr ⟨v, vs, s, rfl, hs, h2 v vs s hmem hs⟩

theorem accepted_of_base {ok : Str → Bool} {m : HMap} {h : Headers} {mime : Option Str} (hm : HttpHeld ok m) (ht : AllText m)
    (hw : LowerMap h) (hmime : ∀ d, mime = some d → ok s!!"content-type" = true ∧ HttpText d)
    (hb : ∀ n, BaseAndFirst m (if n = s!!"content-type" then mime.map fun d => [d] else none) h n) : Accepted ok h := by
  rw [accepted_iff hw]
  intro n vs hg
  have hbase : ∀ d ∈ (if n = s!!"content-type" then mime.map fun d => [d] else none).getD ([] : List Str),
      ok n = true ∧ HttpText d := by
    intro d hd
    split at hd
    · rename_i hn
      cases mime with
      | none => cases hd
      | some d' =>
        rw [List.mem_singleton.mp hd, hn]
        exact hmime d' rfl
    · cases hd
  rcases base_through hm.1 ht hb n with ⟨-, h2⟩ | ⟨v, vs', s, h1, h2, h3⟩
  · rw [hg] at h2
    by_cases hn : n = s!!"content-type"
    · rw [if_pos hn] at h2 hbase
      cases mime with
      | none => cases h2
      | some d =>
        have e : vs = [d] := Option.some.inj h2
        have := hbase d (by simp)
        exact ⟨this.1, fun v hv => by rw [e] at hv; rw [List.mem_singleton.mp hv]; exact this.2⟩
    · rw [if_neg hn] at h2; cases h2
  · rw [hg] at h3
    have e := Option.some.inj h3
    have hmem := FMap.mem_of_get h1
    refine ⟨(hm.2 _ hmem).1, fun w hv => ?_⟩
    rw [e] at hv
    rcases List.mem_append.mp hv with hv | hv
    · exact (hbase w hv).2
    · rw [List.mem_singleton.mp hv]
      exact httpText_of h2 ((hm.2 _ hmem).2 v (by simp))

theorem through_bytes {m : HMap} {h : Headers} {mime : Option Str} (hm : HttpMap m) (ht : AllText m)
    (hb : ∀ n, BaseAndFirst m (if n = s!!"content-type" then mime.map fun d => [d] else none) h n) :
    Through (mime.map utf8Encode) m (asBytes h) := by
  intro n
  rw [get_asBytes]
  rcases base_through hm ht hb n with ⟨h1, h2⟩ | ⟨v, vs, s, h1, h2, h3⟩
  · rw [h1, h2]
    split <;> cases mime <;> rfl
  · rw [h1, h3]
    cases h2
    split <;> cases mime <;> rfl

theorem httpMap_asBytes {h : Headers} (hw : LowerMap h) (hn : ∀ e ∈ h, Ascii e.1) : HttpMap (asBytes h) := by
  constructor
  · unfold asBytes
    rw [List.map_map]
    exact hw.1
  · intro e he
    unfold asBytes at he
    obtain ⟨e', he', rfl⟩ := List.mem_map.mp he
    exact ⟨hn e' he', (hw.2 e' he').1, by simpa using (hw.2 e' he').2⟩

theorem allText_asBytes (h : Headers) : AllText (asBytes h) := by
  intro e he v hv
  unfold asBytes at he
  obtain ⟨e', -, rfl⟩ := List.mem_map.mp he
  obtain ⟨s, -, rfl⟩ := List.mem_map.mp hv
  exact ⟨s, rfl⟩

theorem through_text {h h' : Headers} {mime : Option Str} (hw : LowerMap h) (hn : ∀ e ∈ h, Ascii e.1)
    (hb : ∀ n, BaseAndFirst (asBytes h) (if n = s!!"content-type" then mime.map fun d => [d] else none) h' n) :
    Through mime h h' := by
  intro n
  rcases base_through (httpMap_asBytes hw hn) (allText_asBytes h) hb n with ⟨h1, h2⟩ | ⟨v, vs, s, h1, h2, h3⟩
  · rw [get_asBytes] at h1
    have : FMap.get h n = none := by
      cases hg : FMap.get h n with
      | none => rfl
      | some _ => rw [hg] at h1; cases h1
    rw [this, h2]
    split <;> cases mime <;> rfl
  · rw [get_asBytes] at h1
    cases hg : FMap.get h n with
    | none => rw [hg] at h1; cases h1
    | some ws =>
      rw [hg] at h1
      rcases ws with _ | ⟨w, ws⟩
      · cases h1
      · have e : utf8Encode w = v := by
          have := Option.some.inj h1
          injection this
        rw [h3, utf8Encode_injective (h2.trans e.symm)]
        split <;> cases mime <;> rfl

theorem get_ne_nil {m : HMap} (hm : HttpMap m) (n : Str) (vs : List (List Byte)) (h : FMap.get m n = some vs) : vs ≠ [] :=
  (hm.2 _ (FMap.mem_of_get h)).2.2

theorem base_lower {β : Type} (I : BodyI β) (b : β) : LowerMap ((Msg.new I).setBody I b).headers := by
  have : ((Msg.new I).setBody I b).headers = [] ∨
      ∃ d, ((Msg.new I).setBody I b).headers = [(s!!"content-type", [d])] := by
    unfold Msg.setBody Msg.replaceBody Msg.copyContentType
    show (match I.mime b with | some mime => _ | none => _ : Msg β).headers = [] ∨ _
    cases I.mime b with
    | none => exact .inl rfl
    | some d => exact .inr ⟨d.display, rfl⟩
  rcases this with h | ⟨d, h⟩ <;> rw [h]
  · exact ⟨List.nodup_nil, by simp⟩
  · refine ⟨by simp, fun e he => ?_⟩
    rw [List.mem_singleton.mp he]
    exact ⟨by show NoUpper s!!"content-type"; unfold NoUpper; decide, by simp⟩

theorem toRequest_lower {Uri Url β : Type} {I : BodyI β} {parse : Uri → Option Url} {r : HRequest Uri β} {q : Req Url β}
    (h : toRequest I parse r = some (.ok q)) : LowerMap q.msg.headers := by
  unfold toRequest at h
  split at h
  · split at h
    · cases h
    · cases ha : addHeaders (intoIter r.headers) ((Msg.new I).setBody I r.body).headers with
      | none => simp only [ha] at h; cases h
      | some x =>
        simp only [ha] at h
        cases x with
        | ok h' => cases h; exact addHeaders_lower _ _ _ (base_lower I r.body) ha
        | err e => cases h
        | panic => cases h
  · cases h
  · cases h

theorem toResponse_lower {β : Type} {I : BodyI β} {r : HResponse β} {q : Resp β}
    (h : toResponse I r = some (.ok q)) : LowerMap q.msg.headers := by
  unfold toResponse at h
  split at h
  · cases ha : addHeaders (intoIter r.headers) ((Msg.new I).setBody I r.body).headers with
    | none => simp only [ha] at h; cases h
    | some x =>
      simp only [ha] at h
      cases x with
      | ok h' => cases h; exact addHeaders_lower _ _ _ (base_lower I r.body) ha
      | err e => cases h
      | panic => cases h
  · cases h
  · cases h

theorem base_map {m : HMap} {h : Headers} {mime : Option Mime}
    (h6 : ∀ n, BaseAndFirst m (if n = s!!"content-type" then mime.map fun d => [d.display] else none) h n) (n : Str) :
    BaseAndFirst m (if n = s!!"content-type" then (mime.map Mime.display).map fun d => [d] else none) h n := by
  have := h6 n
  cases mime <;> exact this

theorem mime_ok {ok : Str → Bool} {mime : Option Mime}
    (hmime : ∀ d, mime = some d → ok s!!"content-type" = true ∧ HttpText d.display) (d : Str)
    (hd : mime.map Mime.display = some d) : ok s!!"content-type" = true ∧ HttpText d := by
  cases mime with
  | none => cases hd
  | some d' => cases hd; exact hmime d' rfl

theorem toVersion_sent (v : HVersion) : sentVersion (some (toVersion v)) = v := (C67_version.2.1 v)

end Hyper

section
variable {Uri Url β : Type}

/-- C116 (header collections): a header map of the crate comes back as it was exactly when every name has one value
and that value is ASCII. -/
theorem C116_headers_partial (ok : Str → Bool) (m : HMap) (hm : HttpHeld ok m) :
    (Hyper.toHeaders m).bind (Hyper.ofHeaders ok) = .ok m ↔ ∀ e ∈ m, ∃ v, e.2 = [v] ∧ AsciiBytes v := by
  have hfrom := C60_from_http m hm.1
  have hlow : ∀ h, FirstValues m h → LowerMap h ∧ Accepted ok h := by
    intro h hf
    have hnames : h.map Prod.fst = m.map Prod.fst := by
      clear hfrom hm
      unfold FirstValues at hf
      induction hf with
      | nil => rfl
      | cons hab _ ih => rw [List.map_cons, List.map_cons, ih, hab.1]
    refine ⟨⟨by rw [hnames]; exact hm.1.1, fun e' he' => ?_⟩, fun e' he' => ?_⟩
    · obtain ⟨e, he, h1, v, s, -, -, h4⟩ := forall₂_left hf.flip e' he'
      exact ⟨h1 ▸ (hm.1.2 e he).2.1, by rw [h4]; simp⟩
    · obtain ⟨e, he, h1, v, s, h2, h3, h4⟩ := forall₂_left hf.flip e' he'
      refine ⟨h1 ▸ (hm.2 e he).1, fun w hw => ?_⟩
      rw [h4] at hw
      rw [List.mem_singleton.mp hw]
      exact Hyper.httpText_of h3 ((hm.2 e he).2 v (List.mem_of_mem_head? h2))
  constructor
  · intro h e he
    rw [Res.bind_eq_ok_iff] at h
    obtain ⟨h', h1, h2⟩ := h
    obtain ⟨hf, ha⟩ := (hfrom.1 h').mp h1
    obtain ⟨hw, hacc⟩ := hlow h' hf
    rw [(C60_to_http ok h' hw).1 hacc] at h2
    have h2 : asBytes h' = m := by injection h2
    rw [← h2] at he
    unfold asBytes at he
    obtain ⟨e', he', rfl⟩ := List.mem_map.mp he
    obtain ⟨-, -, -, v, s, -, -, h4⟩ := forall₂_left hf.flip e' he'
    refine ⟨utf8Encode s, by rw [h4]; rfl, ?_⟩
    rw [Hyper.asciiBytes_all, all_utf8Encode]
    exact (spec_ascii_iff _).mp (ha e' he' s (by rw [h4]; simp))
  · intro h
    have hno : ¬ ∃ e ∈ m, ∃ v, e.2.head? = some v ∧ ¬ AsciiBytes v := by
      rintro ⟨e, he, v, hv, hb⟩
      obtain ⟨w, hw, ha⟩ := h e he
      rw [hw] at hv
      cases hv
      exact hb ha
    rcases Hyper.toHeadersLoop_eq m Headers.new hm.1.2 (by simpa [FMap.keys, Headers.new] using hm.1.1) with
      ⟨h', h1, h2, -⟩ | ⟨-, h2⟩
    · replace h1 : Hyper.toHeaders m = .ok h' := by unfold Hyper.toHeaders; rw [h1]; rfl
      obtain ⟨hw, hacc⟩ := hlow h' h2
      rw [h1, Res.bind_ok, (C60_to_http ok h' hw).1 hacc]
      congr 1
      clear hfrom hlow hno h1 hw hacc hm
      unfold FirstValues at h2
      induction h2 with
      | nil => rfl
      | @cons a b l l' hab _ ih =>
        obtain ⟨n, v, s, e1, e2, e3⟩ := hab
        obtain ⟨w, hw, -⟩ := h a (by simp)
        show (b.1, b.2.map utf8Encode) :: asBytes l' = _
        rw [ih fun e he => h e (by simp [he])]
        congr 1
        rw [hw] at e1
        cases e1
        exact Prod.ext n (by rw [e3, hw]; exact congrArg (fun x => [x]) e2)
    · exact absurd h2 hno

example : HttpHeld tokenName [(s!!"a", [[98]]), (s!!"set-cookie", [[97], [98]])] := by
  unfold HttpHeld HttpMap Ascii NoUpper; decide +kernel

/-- C116 (requests of the crate): a request with a known method and text values is converted and converted back with
the method in its usual spelling and the version and body it had. Its headers are those of `Through`, so they are the
ones it had exactly when they are as `GetsThrough` says. -/
theorem C116_request_partial (I : BodyI β) (ok : Str → Bool) (parse : Uri → Option Url) (display : Url → Option Uri)
    (r : Hyper.HRequest Uri β) (hm : HttpHeld ok r.headers) (ht : AllText r.headers) (m : Method)
    (hmeth : sameName r.method m.asStr = true) (u : Url) (hu : parse r.uri = some u) (uri : Uri)
    (hd : display u = some uri)
    (hmime : ∀ d, I.mime r.body = some d → ok s!!"content-type" = true ∧ HttpText d.display) :
    ∃ q r', Hyper.toRequest I parse r = some (.ok q) ∧ Hyper.ofRequest ok display q = .ok r' ∧
      r'.method = m.asStr ∧ r'.uri = uri ∧ r'.version = r.version ∧ r'.body = r.body ∧
      Through ((I.mime r.body).map fun d => utf8Encode d.display) r.headers r'.headers ∧
      (SameHeaders r.headers r'.headers ↔ GetsThrough ((I.mime r.body).map fun d => utf8Encode d.display) r.headers) := by
  obtain ⟨q, h1, h2, h3, h4, h5, h6⟩ := C60_request I parse r hm.1 ht m hmeth u hu
  have h6' := Hyper.base_map h6
  have hw := Hyper.toRequest_lower h1
  have hacc := Hyper.accepted_of_base hm ht hw (Hyper.mime_ok hmime) h6'
  have hthr := Hyper.through_bytes hm.1 ht h6'
  rw [Option.map_map] at hthr
  refine ⟨q, _, h1, (C68_request_partial ok display q hw).1 uri (h3 ▸ hd) hacc, by rw [h2], rfl, ?_, h5, hthr,
    through_same (Hyper.get_ne_nil hm.1) hthr⟩
  rw [h4]
  exact Hyper.toVersion_sent _

example : ∃ q r', Hyper.toRequest (Uri := Str) exampleI some
      ⟨s!!"Get", s!!"u", .http2, [(s!!"content-type", [[97, 47, 98]]), (s!!"x", [[49], [50]])], 4⟩ = some (.ok q) ∧
    Hyper.ofRequest tokenName some q = .ok r' ∧ r'.method = s!!"GET" ∧
      r'.headers = [(s!!"content-type", [utf8Encode s!!"application/json", [97, 47, 98]]), (s!!"x", [[49]])] :=
  ⟨_, _, rfl, rfl, by decide +kernel, by decide +kernel⟩

/-- C116 (responses of the crate): the same, for a response with a known status. -/
theorem C116_response_partial (I : BodyI β) (ok : Str → Bool) (r : Hyper.HResponse β) (hm : HttpHeld ok r.headers)
    (ht : AllText r.headers) (hs : statusNumber r.status = true)
    (hmime : ∀ d, I.mime r.body = some d → ok s!!"content-type" = true ∧ HttpText d.display) :
    ∃ q r', Hyper.toResponse I r = some (.ok q) ∧ Hyper.ofResponse ok q = .ok r' ∧
      r'.status = r.status ∧ r'.version = r.version ∧ r'.body = r.body ∧
      Through ((I.mime r.body).map fun d => utf8Encode d.display) r.headers r'.headers ∧
      (SameHeaders r.headers r'.headers ↔ GetsThrough ((I.mime r.body).map fun d => utf8Encode d.display) r.headers) := by
  have hc : ∃ c : StatusCode, c.toNat = r.status := by
    by_contra hno
    have h1 := (C67_status_from r.status).1
    have h2 := (C67_status_from r.status).2
    cases hst : Hyper.toStatus r.status with
    | ok c => exact hno ⟨c, (h1 c).mp hst⟩
    | err e => unfold Hyper.toStatus Res.unwrap at hst; split at hst <;> cases hst
    | panic => rw [h2.mp hst] at hs; cases hs
  obtain ⟨c, hc⟩ := hc
  obtain ⟨q, h1, h2, h4, h5, h6⟩ := C60_response I r hm.1 ht c hc
  have h6' := Hyper.base_map h6
  have hw := Hyper.toResponse_lower h1
  have hacc := Hyper.accepted_of_base hm ht hw (Hyper.mime_ok hmime) h6'
  have hthr := Hyper.through_bytes hm.1 ht h6'
  rw [Option.map_map] at hthr
  refine ⟨q, _, h1, (C68_response_partial ok q hw).1 hacc, by rw [h2]; exact hc, ?_, h5, hthr,
    through_same (Hyper.get_ne_nil hm.1) hthr⟩
  rw [h4]
  exact Hyper.toVersion_sent _

example : HttpHeld tokenName [(s!!"x", [[49], [50]])] ∧ AllText [(s!!"x", [[49], [50]])] ∧ statusNumber 404 = true := by
  refine ⟨by unfold HttpHeld HttpMap Ascii NoUpper; decide +kernel, ?_, by decide⟩
  simp only [AllText, List.forall_mem_cons, List.not_mem_nil, false_implies, implies_true, and_true]
  exact ⟨⟨s!!"1", by unfold IsText; decide⟩, ⟨s!!"2", by unfold IsText; decide⟩⟩

/-- C116 (our requests): a request of this library converted and converted back has the method, target and body it had,
and a version: HTTP/1.1 if it had none. Its headers are those of `Through`. -/
theorem C116_our_request_partial (I : BodyI β) (ok : Str → Bool) (parse : Uri → Option Url) (display : Url → Option Uri)
    (q : Hyper.Req Url β) (hw : LowerMap q.msg.headers) (hn : ∀ e ∈ q.msg.headers, Ascii e.1)
    (hacc : Accepted ok q.msg.headers) (uri : Uri) (hd : display q.url = some uri) (u : Url) (hu : parse uri = some u) :
    ∃ r q', Hyper.ofRequest ok display q = .ok r ∧ Hyper.toRequest I parse r = some (.ok q') ∧
      q'.method = q.method ∧ q'.url = u ∧ q'.version = some (q.version.getD .http1_1) ∧ q'.msg.body = q.msg.body ∧
      Through ((I.mime q.msg.body).map Mime.display) q.msg.headers q'.msg.headers ∧
      (SameHeaders q.msg.headers q'.msg.headers ↔ GetsThrough ((I.mime q.msg.body).map Mime.display) q.msg.headers) := by
  have h0 := (C68_request_partial ok display q hw).1 uri hd hacc
  obtain ⟨q', h1, h2, h3, h4, h5, h6⟩ := C60_request I parse
    ⟨q.method.asStr, uri, sentVersion q.version, asBytes q.msg.headers, q.msg.body⟩ (Hyper.httpMap_asBytes hw hn)
    (Hyper.allText_asBytes _) q.method (((C67_method_from _).1 q.method).mp (C67_method q.method).2) u hu
  have hthr := Hyper.through_text hw hn (Hyper.base_map h6)
  refine ⟨_, q', h0, h1, h2, h3, ?_, h5, hthr, through_same (fun n vs h => ?_) hthr⟩
  · rw [h4]
    cases hv : q.version with
    | none => rfl
    | some v => exact congrArg some (C67_version.1 v)
  · exact (hw.2 _ (FMap.mem_of_get h)).2

example : LowerMap [(s!!"content-type", [s!!"a/b"]), (s!!"x", [s!!"1", s!!"2"])] ∧
    Accepted tokenName [(s!!"content-type", [s!!"a/b"]), (s!!"x", [s!!"1", s!!"2"])] := by
  unfold LowerMap Accepted NoUpper HttpText; decide +kernel

/-- C116 (our responses): the same. -/
theorem C116_our_response_partial (I : BodyI β) (ok : Str → Bool) (q : Hyper.Resp β) (hw : LowerMap q.msg.headers)
    (hn : ∀ e ∈ q.msg.headers, Ascii e.1) (hacc : Accepted ok q.msg.headers) :
    ∃ r q', Hyper.ofResponse ok q = .ok r ∧ Hyper.toResponse I r = some (.ok q') ∧
      q'.status = q.status ∧ q'.version = some (q.version.getD .http1_1) ∧ q'.msg.body = q.msg.body ∧
      Through ((I.mime q.msg.body).map Mime.display) q.msg.headers q'.msg.headers ∧
      (SameHeaders q.msg.headers q'.msg.headers ↔ GetsThrough ((I.mime q.msg.body).map Mime.display) q.msg.headers) := by
  have h0 := (C68_response_partial ok q hw).1 hacc
  obtain ⟨q', h1, h2, h4, h5, h6⟩ := C60_response I
    ⟨q.status.toNat, sentVersion q.version, asBytes q.msg.headers, q.msg.body⟩ (Hyper.httpMap_asBytes hw hn)
    (Hyper.allText_asBytes _) q.status rfl
  have hthr := Hyper.through_text hw hn (Hyper.base_map h6)
  refine ⟨_, q', h0, h1, h2, ?_, h5, hthr, through_same (fun n vs h => ?_) hthr⟩
  · rw [h4]
    cases hv : q.version with
    | none => rfl
    | some v => exact congrArg some (C67_version.1 v)
  · exact (hw.2 _ (FMap.mem_of_get h)).2

example : LowerMap [(s!!"content-type", [s!!"a/b"]), (s!!"x", [s!!"1"])] ∧ (∀ e ∈ [(s!!"content-type", [s!!"a/b"]), (s!!"x", [s!!"1"])], Ascii e.1) ∧
    Accepted tokenName [(s!!"content-type", [s!!"a/b"]), (s!!"x", [s!!"1"])] := by
  unfold LowerMap Accepted NoUpper HttpText Ascii; decide +kernel

/-- C116 is violated by every message whose body has a media type, as all bodies of this library have when they are
made: unless it says the content type twice already, the message comes back with another content type. -/
theorem C116_violated_content_type (I : BodyI β) (ok : Str → Bool) (r : Hyper.HResponse β) (hm : HttpHeld ok r.headers)
    (ht : AllText r.headers) (hs : statusNumber r.status = true) (hct : ok s!!"content-type" = true) (d : Mime)
    (hb : I.mime r.body = some d) (hd : HttpText d.display)
    (h1 : ∀ vs, FMap.get r.headers s!!"content-type" = some vs → vs.length ≤ 1) :
    ∃ q r', Hyper.toResponse I r = some (.ok q) ∧ Hyper.ofResponse ok q = .ok r' ∧
      ∃ vs, FMap.get r'.headers s!!"content-type" = some (utf8Encode d.display :: vs) ∧
        FMap.get r.headers s!!"content-type" = if vs = [] then none else some vs := by
  obtain ⟨q, r', e1, e2, -, -, -, h, -⟩ := C116_response_partial I ok r hm ht hs
    (fun d' hd' => by rw [hb] at hd'; cases hd'; exact ⟨hct, hd⟩)
  refine ⟨q, r', e1, e2, ?_⟩
  have := h s!!"content-type"
  rw [if_pos rfl, hb] at this
  cases hg : FMap.get r.headers s!!"content-type" with
  | none => rw [hg] at this; exact ⟨[], this, rfl⟩
  | some vs =>
    rcases vs with _ | ⟨v, _ | ⟨w, vs⟩⟩
    · exact absurd rfl (Hyper.get_ne_nil hm.1 _ _ hg)
    · rw [hg] at this; exact ⟨[v], this, rfl⟩
    · have := h1 _ hg; simp at this

end

/-- A response of the crate without any header, with an empty body: it comes back with a content type. -/
example : ((Hyper.toResponse (Body.iface ()) ⟨200, .http11, [], ⟨(), some Mime.BYTE_STREAM, some 0, 0⟩⟩).map
      fun r => (r.bind (Hyper.ofResponse tokenName)).map fun r => r.headers) =
    some (.ok [(s!!"content-type", [utf8Encode s!!"application/octet-stream"])]) := by decide +kernel

end HT
