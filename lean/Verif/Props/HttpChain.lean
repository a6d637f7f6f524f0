import Verif.Spec.HttpChain
import Verif.Props.HttpBack
import Verif.Lemmas.AsciiText

/-! C145: conversions to the crate `http` and back, again and again. -/

namespace HT
open Spec

variable {Uri Url β : Type}

theorem take_once (vs : HeaderValues) : List.take 1 (List.take 1 vs) = List.take 1 vs := by
  cases vs <;> rfl

theorem lowerMap_set {h : Headers} (hw : LowerMap h) (hn : ∀ e ∈ h, Ascii e.1) {n : Str} {vs : List Str} (h1 : NoUpper n) (h2 : Ascii n)
    (h3 : vs ≠ []) : LowerMap (FMap.set h n vs) ∧ ∀ e ∈ FMap.set h n vs, Ascii e.1 := by
  refine ⟨⟨FMap.wf_set (m := h) hw.1 n vs, fun e he => ?_⟩, fun e he => ?_⟩
  · rcases FMap.mem_set he with rfl | he
    · exact ⟨h1, h3⟩
    · exact hw.2 e he
  · rcases FMap.mem_set he with rfl | he
    · exact h2
    · exact hn e he

theorem lowerMap_append {h : Headers} (hw : LowerMap h) (hn : ∀ e ∈ h, Ascii e.1) {n v : Str} (h1 : NoUpper n) (h2 : Ascii n) :
    LowerMap (h.append n (.value v)).1 ∧ ∀ e ∈ (h.append n (.value v)).1, Ascii e.1 := by
  unfold Headers.append
  cases hg : FMap.get h n with
  | none => exact lowerMap_set hw hn h1 h2 (by simp)
  | some vs => exact lowerMap_set hw hn h1 h2 (by simp [HeaderValues.append])

theorem lowerMap_add (l : List (Option Str × List Byte)) (hl : ∀ e ∈ l, ∀ n, e.1 = some n → Ascii n) (h h' : Headers) (hw : LowerMap h)
    (hn : ∀ e ∈ h, Ascii e.1) (hh : Hyper.addHeaders l h = some (.ok h')) : LowerMap h' ∧ ∀ e ∈ h', Ascii e.1 := by
  induction l generalizing h with
  | nil =>
    cases hh
    exact ⟨hw, hn⟩
  | cons e l ih =>
    obtain ⟨n, v⟩ := e
    have hl' := fun e he => hl e (List.mem_cons_of_mem _ he)
    rw [Hyper.addHeaders] at hh
    split at hh
    · cases hh
    · cases n with
      | none => exact ih hl' h hw hn hh
      | some n =>
        simp only at hh
        rename_i v' _
        obtain ⟨g1, g2⟩ := lowerMap_append (v := v') hw hn (Mime.noUpper_lower n) (asciiT_lower.2 (hl _ (List.mem_cons_self) n rfl))
        split at hh
        · rename_i h2 _ heq
          rw [heq] at g1 g2
          exact ih hl' _ g1 g2 hh
        · cases hh
        · cases hh

theorem intoIter_names {m : HMap} (hm : HttpMap m) : ∀ e ∈ Hyper.intoIter m, ∀ n, e.1 = some n → Ascii n := by
  intro e he n hn
  unfold Hyper.intoIter at he
  obtain ⟨⟨a, vs⟩, ha, hb⟩ := List.mem_flatMap.1 he
  cases vs with
  | nil => simp at hb
  | cons v vs =>
    rcases List.mem_cons.1 hb with rfl | hb
    · cases hn
      exact (hm.2 _ ha).1
    · obtain ⟨w, -, rfl⟩ := List.mem_map.1 hb
      cases hn

theorem lowerMap_base (I : BodyI β) (b : β) : LowerMap ((Msg.new I).setBody I b).headers ∧
    ∀ e ∈ ((Msg.new I).setBody I b).headers, Ascii e.1 := by
  have h0 : LowerMap ([] : Headers) := ⟨List.nodup_nil, by simp⟩
  have key : ((Msg.new I).setBody I b).headers = match I.mime b with
      | some m => FMap.set [] s!!"content-type" [m.toHeaderValue]
      | none => [] := by
    unfold Msg.setBody Msg.replaceBody Msg.copyContentType
    show (match I.mime b with
      | some mime => (Msg.setContentType _ mime).2
      | none => _).headers = _
    cases I.mime b <;> rfl
  rw [key]
  cases I.mime b with
  | none => exact ⟨h0, by simp⟩
  | some m =>
    exact lowerMap_set h0 (by simp) (by unfold NoUpper; decide +kernel) (by unfold Ascii; decide +kernel) (by simp)

theorem converted_step (I : BodyI β) (ok : Str → Bool) {r q : Hyper.Resp β} (hw : LowerMap r.msg.headers)
    (hn : ∀ e ∈ r.msg.headers, Ascii e.1) (hc : Converted I ok r q) :
    q.status = r.status ∧ q.version = some (r.version.getD .http1_1) ∧ q.msg.body = r.msg.body ∧
      CameBack (I.mime r.msg.body) r.msg.headers q.msg.headers ∧ LowerMap q.msg.headers ∧ ∀ e ∈ q.msg.headers, Ascii e.1 := by
  obtain ⟨p, hp, hq⟩ := hc
  have ha : Accepted ok r.msg.headers := by
    by_contra h
    rw [(C68_response_partial ok r hw).2 h] at hp
    cases hp
  obtain ⟨p', q', e1, e2, e3, e4, e5, e6⟩ := C145_response_partial I ok r hw hn ha
  rw [hp] at e1
  obtain rfl := Res.ok.inj e1
  rw [hq] at e2
  obtain rfl := Res.ok.inj (Option.some.inj e2)
  refine ⟨e3, e4, e5, e6, ?_⟩
  rw [(C68_response_partial ok r hw).1 ha] at hp
  obtain rfl := Res.ok.inj hp
  unfold Hyper.toResponse at hq
  rw [(C67_status r.status).2] at hq
  simp only [Option.map_eq_some_iff] at hq
  obtain ⟨x, hx, hy⟩ := hq
  cases x with
  | ok h =>
    obtain rfl := Res.ok.inj hy
    exact lowerMap_add _ (intoIter_names (asBytes_http hw hn)) _ _ (lowerMap_base I _).1 (lowerMap_base I _).2 hx
  | err e => cases hy
  | panic => cases hy

theorem cameBack_get {mime : Option Mime} {h h' : Headers} (hw : LowerMap h) (hc : CameBack mime h h') (n : Str) :
    h'.get n = match h.get n with
      | none => ofMedia mime n
      | some vs => some ((ofMedia mime n).getD [] ++ vs.take 1) := by
  cases hg : h.get n with
  | none => exact (hc n).1 hg
  | some vs =>
    cases vs with
    | nil => exact absurd rfl (hw.2 _ (FMap.mem_of_get hg)).2
    | cons v vs => exact (hc n).2 v vs hg

/-- After any number of conversions to the crate and back, at least two, a response has its status, body and version; of each header
the first value is left, but the content type is twice the media type of the body if it has one. -/
theorem C145_settles (I : BodyI β) (ok : Str → Bool) (k : Nat) (r q : Hyper.Resp β) (hw : LowerMap r.msg.headers)
    (hn : ∀ e ∈ r.msg.headers, Ascii e.1) (hc : ConvertedTimes I ok (k + 2) r q) :
    q.status = r.status ∧ q.version = some (r.version.getD .http1_1) ∧ q.msg.body = r.msg.body ∧
      ∀ n, q.msg.headers.get n = settled (I.mime r.msg.body) r.msg.headers n := by
  have key : ∀ k q, ConvertedTimes I ok (k + 2) r q → (q.status = r.status ∧ q.version = some (r.version.getD .http1_1) ∧
      q.msg.body = r.msg.body ∧ ∀ n, q.msg.headers.get n = settled (I.mime r.msg.body) r.msg.headers n) ∧
      LowerMap q.msg.headers ∧ ∀ e ∈ q.msg.headers, Ascii e.1 := by
    intro k
    induction k with
    | zero =>
      rintro q ⟨x, ⟨y, rfl, h1⟩, h2⟩
      obtain ⟨a1, a2, a3, a4, a5, a6⟩ := converted_step I ok hw hn h1
      obtain ⟨b1, b2, b3, b4, b5, b6⟩ := converted_step I ok a5 a6 h2
      refine ⟨⟨b1.trans a1, by rw [b2, a2]; rfl, b3.trans a3, fun n => ?_⟩, b5, b6⟩
      rw [cameBack_get a5 b4, cameBack_get hw a4, a3]
      unfold ofMedia settled
      by_cases hct : n = s!!"content-type" <;> cases I.mime y.msg.body <;> cases y.msg.headers.get n <;>
        simp [hct, take_once]
    | succ k ih =>
      rintro q ⟨x, hx, h2⟩
      obtain ⟨⟨a1, a2, a3, a4⟩, a5, a6⟩ := ih x hx
      obtain ⟨b1, b2, b3, b4, b5, b6⟩ := converted_step I ok a5 a6 h2
      refine ⟨⟨b1.trans a1, by rw [b2, a2]; rfl, b3.trans a3, fun n => ?_⟩, b5, b6⟩
      rw [cameBack_get a5 b4, a4, a3]
      unfold ofMedia settled
      by_cases hct : n = s!!"content-type" <;> cases I.mime r.msg.body <;> cases r.msg.headers.get n <;>
        simp [hct, take_once]
  exact (key k q hc).1

example : ConvertedTimes exampleI tokenName 2 ⟨.ok, none, ⟨[(s!!"content-type", [s!!"a/b"]), (s!!"x", [s!!"1", s!!"2"])], 4⟩⟩
    ⟨.ok, some .http1_1, ⟨[(s!!"content-type", [s!!"application/json", s!!"application/json"]), (s!!"x", [s!!"1"])], 4⟩⟩ :=
  ⟨⟨.ok, some .http1_1, ⟨[(s!!"content-type", [s!!"application/json", s!!"a/b"]), (s!!"x", [s!!"1"])], 4⟩⟩,
    ⟨_, rfl, _, by rfl, by rfl⟩, _, by rfl, by rfl⟩

theorem reqConverted_step (I : BodyI β) (ok : Str → Bool) (display : Url → Option Uri) (parse : Uri → Option Url) {r q : Hyper.Req Url β}
    (hb : ∀ u, display r.url = some u → parse u = some r.url) (hw : LowerMap r.msg.headers)
    (hn : ∀ e ∈ r.msg.headers, Ascii e.1) (hc : ReqConverted I ok display parse r q) :
    q.method = r.method ∧ q.url = r.url ∧ q.version = some (r.version.getD .http1_1) ∧ q.msg.body = r.msg.body ∧
      CameBack (I.mime r.msg.body) r.msg.headers q.msg.headers ∧ LowerMap q.msg.headers ∧ ∀ e ∈ q.msg.headers, Ascii e.1 := by
  obtain ⟨p, hp, hq⟩ := hc
  have ha : Accepted ok r.msg.headers := by
    by_contra h
    rw [(C68_request_partial ok display r hw).2 (.inr h)] at hp
    cases hp
  cases hd : display r.url with
  | none =>
    rw [(C68_request_partial ok display r hw).2 (.inl hd)] at hp
    cases hp
  | some u =>
    obtain ⟨p', q', e1, e2, e3, e4, e5, e6, e7⟩ := C145_request_partial I ok display parse r u hd (hb u hd) hw hn ha
    rw [hp] at e1
    obtain rfl := Res.ok.inj e1
    rw [hq] at e2
    obtain rfl := Res.ok.inj (Option.some.inj e2)
    refine ⟨e3, e4, e5, e6, e7, ?_⟩
    rw [(C68_request_partial ok display r hw).1 u hd ha] at hp
    obtain rfl := Res.ok.inj hp
    unfold Hyper.toRequest at hq
    simp only [(C67_method r.method).2, hb u hd, Option.map_eq_some_iff] at hq
    obtain ⟨x, hx, hy⟩ := hq
    cases x with
    | ok h =>
      obtain rfl := Res.ok.inj hy
      exact lowerMap_add _ (intoIter_names (asBytes_http hw hn)) _ _ (lowerMap_base I _).1 (lowerMap_base I _).2 hx
    | err e => cases hy
    | panic => cases hy

/-- The same for a request whose target the crate gives back as it was. -/
theorem C145_request_settles (I : BodyI β) (ok : Str → Bool) (display : Url → Option Uri) (parse : Uri → Option Url) (k : Nat)
    (r q : Hyper.Req Url β) (hb : ∀ u, display r.url = some u → parse u = some r.url) (hw : LowerMap r.msg.headers)
    (hn : ∀ e ∈ r.msg.headers, Ascii e.1) (hc : ReqConvertedTimes I ok display parse (k + 2) r q) :
    q.method = r.method ∧ q.url = r.url ∧ q.version = some (r.version.getD .http1_1) ∧ q.msg.body = r.msg.body ∧
      ∀ n, q.msg.headers.get n = settled (I.mime r.msg.body) r.msg.headers n := by
  have key : ∀ k q, ReqConvertedTimes I ok display parse (k + 2) r q → (q.method = r.method ∧ q.url = r.url ∧
      q.version = some (r.version.getD .http1_1) ∧
      q.msg.body = r.msg.body ∧ ∀ n, q.msg.headers.get n = settled (I.mime r.msg.body) r.msg.headers n) ∧
      LowerMap q.msg.headers ∧ ∀ e ∈ q.msg.headers, Ascii e.1 := by
    intro k
    induction k with
    | zero =>
      rintro q ⟨x, ⟨y, rfl, h1⟩, h2⟩
      obtain ⟨a1, a0, a2, a3, a4, a5, a6⟩ := reqConverted_step I ok display parse hb hw hn h1
      obtain ⟨b1, b0, b2, b3, b4, b5, b6⟩ := reqConverted_step I ok display parse (by rw [a0]; exact hb) a5 a6 h2
      refine ⟨⟨b1.trans a1, b0.trans a0, by rw [b2, a2]; rfl, b3.trans a3, fun n => ?_⟩, b5, b6⟩
      rw [cameBack_get a5 b4, cameBack_get hw a4, a3]
      unfold ofMedia settled
      by_cases hct : n = s!!"content-type" <;> cases I.mime y.msg.body <;> cases y.msg.headers.get n <;>
        simp [hct, take_once]
    | succ k ih =>
      rintro q ⟨x, hx, h2⟩
      obtain ⟨⟨a1, a0, a2, a3, a4⟩, a5, a6⟩ := ih x hx
      obtain ⟨b1, b0, b2, b3, b4, b5, b6⟩ := reqConverted_step I ok display parse (by rw [a0]; exact hb) a5 a6 h2
      refine ⟨⟨b1.trans a1, b0.trans a0, by rw [b2, a2]; rfl, b3.trans a3, fun n => ?_⟩, b5, b6⟩
      rw [cameBack_get a5 b4, a4, a3]
      unfold ofMedia settled
      by_cases hct : n = s!!"content-type" <;> cases I.mime r.msg.body <;> cases r.msg.headers.get n <;>
        simp [hct, take_once]
  exact (key k q hc).1

example : ReqConvertedTimes exampleI tokenName (fun u : Str => some u) some 2
    ⟨.put, s!!"/x", none, ⟨[(s!!"content-type", [s!!"a/b"]), (s!!"x", [s!!"1", s!!"2"])], 4⟩⟩
    ⟨.put, s!!"/x", some .http1_1, ⟨[(s!!"content-type", [s!!"application/json", s!!"application/json"]), (s!!"x", [s!!"1"])], 4⟩⟩ :=
  ⟨⟨.put, s!!"/x", some .http1_1, ⟨[(s!!"content-type", [s!!"application/json", s!!"a/b"]), (s!!"x", [s!!"1"])], 4⟩⟩,
    ⟨_, rfl, _, by rfl, by rfl⟩, _, by rfl, by rfl⟩

/-- Whatever content type was chosen for a body of another media type is lost after two conversions. -/
theorem C145_violated_lost (I : BodyI β) (ok : Str → Bool) (k : Nat) (r q : Hyper.Resp β) (hw : LowerMap r.msg.headers)
    (hn : ∀ e ∈ r.msg.headers, Ascii e.1) (hc : ConvertedTimes I ok (k + 2) r q) (m : Mime) (hm : I.mime r.msg.body = some m) (v : Str)
    (hne : v ≠ m.display) :
    ∃ vs, q.msg.headers.get s!!"content-type" = some vs ∧ v ∉ vs := by
  refine ⟨[m.display, m.display], ?_, by simp [hne]⟩
  rw [(C145_settles I ok k r q hw hn hc).2.2.2, hm]
  rfl

example : exampleI.mime 4 = some Mime.JSON ∧ s!!"a/b" ≠ Mime.JSON.display := by
  constructor
  · rfl
  · decide +kernel

end HT
