import Verif.Spec.HttpBack
import Verif.Props.Hyperium
import Verif.Props.JsonResponse

/-! C145: messages that are converted to the crate `http` and back. -/

namespace HT
open Spec

variable {Uri Url β : Type}

theorem asBytes_mem {h : Headers} {n : Str} {vs : List (List Byte)} :
    (n, vs) ∈ asBytes h ↔ ∃ ws, (n, ws) ∈ h ∧ vs = ws.map utf8Encode := by
  unfold asBytes
  rw [List.mem_map]
  constructor
  · rintro ⟨⟨a, ws⟩, hm, he⟩
    cases he
    exact ⟨ws, hm, rfl⟩
  · rintro ⟨ws, hm, rfl⟩
    exact ⟨_, hm, rfl⟩

theorem asBytes_http {h : Headers} (hw : LowerMap h) (hn : ∀ e ∈ h, Ascii e.1) : HttpMap (asBytes h) := by
  constructor
  · unfold asBytes
    rw [List.map_map]
    exact hw.1
  · intro e he
    unfold asBytes at he
    obtain ⟨e', he', rfl⟩ := List.mem_map.mp he
    exact ⟨hn e' he', (hw.2 e' he').1, by simpa using (hw.2 e' he').2⟩

theorem asBytes_text (h : Headers) : AllText (asBytes h) := by
  rintro ⟨n, vs⟩ he v hv
  obtain ⟨ws, -, rfl⟩ := asBytes_mem.1 he
  obtain ⟨w, -, rfl⟩ := List.mem_map.1 hv
  exact ⟨w, rfl⟩

theorem cameBack_of {h h' : Headers} {mime : Option Mime}
    (hb : ∀ n, BaseAndFirst (asBytes h) (ofMedia mime n) h' n) : CameBack mime h h' := by
  intro n
  constructor
  · intro h0
    refine (hb n).1 fun hm => ?_
    rw [show (asBytes h).map Prod.fst = FMap.keys h by unfold asBytes FMap.keys; rw [List.map_map]; rfl] at hm
    exact (FMap.get_eq_none_iff h n).1 h0 hm
  · intro v vs h0
    exact (hb n).2 (utf8Encode v) (vs.map utf8Encode) v (asBytes_mem.2 ⟨v :: vs, FMap.mem_of_get h0, rfl⟩) rfl

/-- A response whose headers the crate takes comes back with its status and body and with its version, which is HTTP/1.1 if it had
none; of each header the first value comes back, after the media type of the body for the content type. What is missing: the other
values, and a content type that is as it was. -/
theorem C145_response_partial (I : BodyI β) (ok : Str → Bool) (r : Hyper.Resp β) (hw : LowerMap r.msg.headers)
    (hn : ∀ e ∈ r.msg.headers, Ascii e.1) (ha : Accepted ok r.msg.headers) :
    ∃ p q, Hyper.ofResponse ok r = .ok p ∧ Hyper.toResponse I p = some (.ok q) ∧ q.status = r.status ∧
      q.version = some (r.version.getD .http1_1) ∧ q.msg.body = r.msg.body ∧
      CameBack (I.mime r.msg.body) r.msg.headers q.msg.headers := by
  obtain ⟨q, h1, h2, h3, h4, h5⟩ := C60_response I ⟨r.status.toNat, sentVersion r.version, asBytes r.msg.headers, r.msg.body⟩
    (asBytes_http hw hn) (asBytes_text _) r.status rfl
  refine ⟨_, q, (C68_response_partial ok r hw).1 ha, h1, h2, ?_, h4, cameBack_of h5⟩
  rw [h3]
  cases r.version with
  | none => rfl
  | some v => exact congrArg some (C67_version.1 v)

example : ((Hyper.ofResponse tokenName ⟨.notFound, none, ⟨[(s!!"a", [s!!"b", s!!"c"])], 3⟩⟩).map fun p =>
      (Hyper.toResponse exampleI p).map fun q => q.map fun q => q.msg.headers.get s!!"a") =
    .ok (some (.ok (some [s!!"b"]))) := by decide +kernel

/-- The same for a request whose target the crate takes and gives back. -/
theorem C145_request_partial (I : BodyI β) (ok : Str → Bool) (display : Url → Option Uri) (parse : Uri → Option Url)
    (r : Hyper.Req Url β) (u : Uri) (hd : display r.url = some u) (hp : parse u = some r.url) (hw : LowerMap r.msg.headers)
    (hn : ∀ e ∈ r.msg.headers, Ascii e.1) (ha : Accepted ok r.msg.headers) :
    ∃ p q, Hyper.ofRequest ok display r = .ok p ∧ Hyper.toRequest I parse p = some (.ok q) ∧ q.method = r.method ∧
      q.url = r.url ∧ q.version = some (r.version.getD .http1_1) ∧ q.msg.body = r.msg.body ∧
      CameBack (I.mime r.msg.body) r.msg.headers q.msg.headers := by
  obtain ⟨q, h1, h2, h3, h4, h5, h6⟩ := C60_request I parse
    ⟨r.method.asStr, u, sentVersion r.version, asBytes r.msg.headers, r.msg.body⟩
    (asBytes_http hw hn) (asBytes_text _) r.method (((C67_method_from _).1 _).1 (C67_method r.method).2) r.url hp
  refine ⟨_, q, (C68_request_partial ok display r hw).1 u hd ha, h1, h2, h3, ?_, h5, cameBack_of h6⟩
  rw [h4]
  cases r.version with
  | none => rfl
  | some v => exact congrArg some (C67_version.1 v)

example : ((Hyper.ofRequest tokenName (fun u : Str => some u) ⟨.put, s!!"/x", some .http2_0, ⟨[(s!!"a", [s!!"b"])], 3⟩⟩).map fun p =>
      (Hyper.toRequest exampleI (fun u : Str => some u) p).map fun q => q.map fun q => (q.method, q.url, q.version)) =
    .ok (some (.ok (.put, s!!"/x", some .http2_0))) := by decide +kernel

theorem cameBack_same {mime : Option Mime} {h h' : Headers} (hw : LowerMap h) (hc : CameBack mime h h') :
    (∀ n, h'.get n = h.get n) ↔ Unharmed mime h := by
  have hne : ∀ n vs, h.get n = some vs → ∃ v ws, vs = v :: ws := by
    intro n vs hg
    have := (hw.2 _ (FMap.mem_of_get hg)).2
    cases vs with
    | nil => exact absurd rfl this
    | cons v ws => exact ⟨v, ws, rfl⟩
  constructor
  · intro hs
    refine ⟨fun n vs hn hg => ?_, ?_⟩
    · obtain ⟨v, ws, rfl⟩ := hne n vs hg
      have := (hc n).2 v ws hg
      rw [hs n, hg, ofMedia, if_neg hn] at this
      simpa using this
    · cases mime with
      | none =>
        intro vs hg
        obtain ⟨v, ws, rfl⟩ := hne _ vs hg
        have := (hc s!!"content-type").2 v ws hg
        rw [hs, hg, ofMedia, if_pos rfl] at this
        simpa using this
      | some m =>
        show h.get _ = _
        cases hg : h.get s!!"content-type" with
        | none =>
          have := (hc s!!"content-type").1 hg
          rw [hs, hg, ofMedia, if_pos rfl] at this
          cases this
        | some vs =>
          obtain ⟨v, ws, rfl⟩ := hne _ vs hg
          have := (hc s!!"content-type").2 v ws hg
          rw [hs, hg, ofMedia, if_pos rfl] at this
          simp only [Option.map_some, Option.getD_some, List.cons_append, List.nil_append, Option.some.injEq, List.cons.injEq] at this
          obtain ⟨rfl, rfl⟩ := this
          rfl
  · rintro ⟨h1, h2⟩ n
    by_cases hn : n = s!!"content-type"
    · subst hn
      cases mime with
      | none =>
        cases hg : h.get s!!"content-type" with
        | none => rw [(hc _).1 hg]; rfl
        | some vs =>
          obtain ⟨v, ws, rfl⟩ := hne _ vs hg
          have := h2 _ hg
          rw [(hc _).2 v ws hg]
          cases ws with
          | nil => rfl
          | cons => simp at this
      | some m =>
        have h2 : h.get s!!"content-type" = some [m.display, m.display] := h2
        rw [(hc _).2 _ _ h2, h2]
        rfl
    · cases hg : h.get n with
      | none => rw [(hc n).1 hg, ofMedia, if_neg hn]
      | some vs =>
        obtain ⟨v, ws, rfl⟩ := hne _ vs hg
        have := h1 n _ hn hg
        rw [(hc n).2 v ws hg, ofMedia, if_neg hn]
        cases ws with
        | nil => rfl
        | cons => simp at this

/-- The headers come back as they were exactly if each name has one value and the body has no media type, or the content type
was there twice already. -/
theorem C145_same_iff (I : BodyI β) (ok : Str → Bool) (r : Hyper.Resp β) (hw : LowerMap r.msg.headers)
    (hn : ∀ e ∈ r.msg.headers, Ascii e.1) (p : Hyper.HResponse β) (q : Hyper.Resp β) (hp : Hyper.ofResponse ok r = .ok p)
    (hq : Hyper.toResponse I p = some (.ok q)) :
    (∀ n, q.msg.headers.get n = r.msg.headers.get n) ↔ Unharmed (I.mime r.msg.body) r.msg.headers := by
  have ha : Accepted ok r.msg.headers := by
    by_contra h
    rw [(C68_response_partial ok r hw).2 h] at hp
    cases hp
  obtain ⟨p', q', e1, e2, -, -, -, h⟩ := C145_response_partial I ok r hw hn ha
  rw [hp] at e1
  cases e1
  rw [hq] at e2
  cases e2
  exact cameBack_same hw h

example : Unharmed none [(s!!"a", [s!!"b"])] ∧ ¬ Unharmed (some Mime.JSON) [(s!!"content-type", [s!!"application/json"])] := by
  constructor
  · constructor
    · intro n vs _ hg
      have := FMap.mem_of_get hg
      simp only [List.mem_singleton, Prod.mk.injEq] at this
      rw [this.2]
      rfl
    · intro vs hg
      have := FMap.mem_of_get hg
      simp only [List.mem_singleton, Prod.mk.injEq] at this
      rw [this.2]
      rfl
  · rintro ⟨-, h⟩
    revert h
    decide +kernel

/-- The same for a request. -/
theorem C145_request_same_iff (I : BodyI β) (ok : Str → Bool) (display : Url → Option Uri) (parse : Uri → Option Url)
    (r : Hyper.Req Url β) (u : Uri) (hd : display r.url = some u) (hu : parse u = some r.url) (hw : LowerMap r.msg.headers)
    (hn : ∀ e ∈ r.msg.headers, Ascii e.1) (p : Hyper.HRequest Uri β) (q : Hyper.Req Url β)
    (hp : Hyper.ofRequest ok display r = .ok p) (hq : Hyper.toRequest I parse p = some (.ok q)) :
    (∀ n, q.msg.headers.get n = r.msg.headers.get n) ↔ Unharmed (I.mime r.msg.body) r.msg.headers := by
  have ha : Accepted ok r.msg.headers := by
    by_contra h
    rw [(C68_request_partial ok display r hw).2 (.inr h)] at hp
    cases hp
  obtain ⟨p', q', e1, e2, -, -, -, -, h⟩ := C145_request_partial I ok display parse r u hd hu hw hn ha
  rw [hp] at e1
  obtain rfl := Res.ok.inj e1
  rw [hq] at e2
  obtain rfl := Res.ok.inj (Option.some.inj e2)
  exact cameBack_same hw h

example : ((Hyper.ofRequest tokenName (fun u : Str => some u) ⟨.put, s!!"/x", none, ⟨[(s!!"a", [s!!"b"])], 3⟩⟩).map fun p =>
      (Hyper.toRequest exampleI (fun u : Str => some u) p).map fun q => q.map fun q => q.msg.headers.get s!!"a") =
    .ok (some (.ok (some [s!!"b"]))) := by decide +kernel

/-- A response with a body of some media type and one content type comes back with two of them. -/
theorem C145_violated_twice (I : BodyI β) (ok : Str → Bool) (r : Hyper.Resp β) (hw : LowerMap r.msg.headers)
    (hn : ∀ e ∈ r.msg.headers, Ascii e.1) (ha : Accepted ok r.msg.headers) (m : Mime) (hm : I.mime r.msg.body = some m) (v : Str)
    (hv : r.msg.headers.get s!!"content-type" = some [v]) :
    ∃ p q, Hyper.ofResponse ok r = .ok p ∧ Hyper.toResponse I p = some (.ok q) ∧
      q.msg.headers.get s!!"content-type" = some [m.display, v] := by
  obtain ⟨p, q, e1, e2, -, -, -, h⟩ := C145_response_partial I ok r hw hn ha
  refine ⟨p, q, e1, e2, ?_⟩
  rw [(h _).2 v [] hv, hm]
  rfl

example : ((Hyper.ofResponse tokenName ⟨.ok, none, ⟨[(s!!"content-type", [s!!"application/json"])], 4⟩⟩).map fun p =>
      (Hyper.toResponse exampleI p).map fun q => q.map fun q => q.msg.headers.get s!!"content-type") =
    .ok (some (.ok (some [s!!"application/json", s!!"application/json"]))) := by decide +kernel

/-- A JSON value that is sent as a response comes through the crate and back: status 200, and its reader gets the value if arrays and
objects are at most 127 deep. -/
theorem C145_json_partial {κ : Type} [DecidableEq κ] {T : κ → Type} (ok : Str → Bool) (hok : ok s!!"content-type" = true) (j : Json)
    (hj : IsValue j) (hd : Nested 127 j) (r : RespVal (Body (List Byte)) T) (hr : RespVal.ofValue j = .ok r) :
    ∃ p q, Hyper.ofResponse ok ⟨r.status, r.version, r.msg⟩ = .ok p ∧ Hyper.toResponse (Body.iface []) p = some (.ok q) ∧
      q.status.toNat = 200 ∧ q.msg.headers.get s!!"content-type" = some [s!!"application/json", s!!"application/json"] ∧
      ∀ ns : List Nat, (∀ n ∈ ns, n ≠ 0) → (utf8Encode (jsonText j)).length < ns.length →
        q.msg.body.intoJson jsonFromSlice cursorI ns = some (.ok j) := by
  obtain ⟨b, hb, h1, h2, h3⟩ := (C64_json jsonFromSlice (some (utf8Encode (jsonText j)))).2 _ rfl
  have hv : Body.ofValue j = .ok b := by unfold Body.ofValue; rw [hb]
  unfold RespVal.ofValue at hr
  rw [hv] at hr
  obtain rfl := Res.ok.inj hr.symm
  have hs : Mime.JSON.toHeaderValue = s!!"application/json" := by decide +kernel
  have hh : (Msg.setBody (Body.iface []) (Msg.new (Body.iface [])) b).headers = [(s!!"content-type", [s!!"application/json"])] := by
    have : (Msg.setBody (Body.iface []) (Msg.new (Body.iface [])) b).headers =
        (Headers.insert Headers.new CONTENT_TYPE (.value Mime.JSON.toHeaderValue)).1 := by
      cases hb
      rfl
    rw [this, hs]
    rfl
  have hbody : (Msg.setBody (Body.iface []) (Msg.new (Body.iface [])) b).body = b := C12_new_body _ _ (.set b)
  obtain ⟨p, q, e1, e2, e3, -, e5, e6⟩ := C145_response_partial (Body.iface []) ok
    ⟨.ok, none, Msg.setBody (Body.iface []) (Msg.new (Body.iface [])) b⟩
    (by
      show LowerMap (Msg.setBody (Body.iface []) (Msg.new (Body.iface [])) b).headers
      rw [hh]
      unfold LowerMap NoUpper
      decide +kernel)
    (by
      show ∀ e ∈ (Msg.setBody (Body.iface []) (Msg.new (Body.iface [])) b).headers, Ascii e.1
      rw [hh]
      unfold Ascii
      decide +kernel)
    (by
      show Accepted ok (Msg.setBody (Body.iface []) (Msg.new (Body.iface [])) b).headers
      rw [hh]
      intro e he
      obtain rfl := List.mem_singleton.1 he
      refine ⟨hok, ?_⟩
      unfold HttpText
      decide +kernel)
  refine ⟨p, q, e1, e2, by rw [e3]; rfl, ?_, ?_⟩
  · rw [(e6 _).2 s!!"application/json" [] (by rw [hh]; rfl), hbody]
    rw [show (Body.iface ([] : List Byte)).mime b = some Mime.JSON from h2]
    decide +kernel
  · intro ns hns hl
    rw [e5, hbody, h3 ns hns hl, (C141_back_iff_partial j hj).2 hd]

example : tokenName s!!"content-type" = true ∧ (((RespVal.ofValue (T := fun _ : Unit => Nat) (.arr [.int 1])).bind fun r =>
    Hyper.ofResponse tokenName ⟨r.status, r.version, r.msg⟩).map fun p =>
      (Hyper.toResponse (Body.iface []) p).map fun q => q.map fun q => q.msg.headers.get s!!"content-type") =
    .ok (some (.ok (some [s!!"application/json", s!!"application/json"]))) := by decide +kernel

end HT
