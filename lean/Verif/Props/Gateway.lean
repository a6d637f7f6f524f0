import Verif.Spec.Gateway
import Verif.Props.HeaderIter
import Verif.Props.Message
import Verif.Props.Whole

/-! C142: a gateway sends on what it got. -/

namespace HT
open Spec

variable {β : Type}

/-- What holds of the headers of a message: names are distinct and every header has a value. -/
def Sound (h : Headers) : Prop := FMap.WF h ∧ ∀ n vs, h.get n = some vs → vs ≠ []

theorem sound_of_get {h h' : Headers} (hw : FMap.WF h') (hs : Sound h) (hg : ∀ n vs, h'.get n = some vs → ∃ n', h.get n' = some vs) :
    Sound h' := ⟨hw, fun n vs hv => by obtain ⟨n', h2⟩ := hg n vs hv; exact hs.2 n' vs h2⟩

theorem insert_values (acc : Headers) (n : HeaderName) (vs : HeaderValues) :
    (acc.insert n (.values vs)).1 = FMap.set acc n vs := by
  simp only [Headers.insert, writeValues_eq, writeValues]

theorem copyHeaders_get (l : List (HeaderName × HeaderValues)) (acc : Headers) (hl : (l.map Prod.fst).Nodup) (n : HeaderName) :
    (copyHeaders acc l).get n = (FMap.get l n).or (acc.get n) := by
  unfold copyHeaders
  induction l generalizing acc with
  | nil => simp
  | cons e l ih =>
    rw [List.map_cons, List.nodup_cons] at hl
    rw [List.foldl_cons, ih _ hl.2, insert_values]
    simp only [Headers.get, FMap.get_set, FMap.get]
    by_cases he : e.1 = n
    · rw [if_pos he, if_pos he, (FMap.get_eq_none_iff l n).2 (by rw [← he]; exact hl.1)]
      rfl
    · rw [if_neg he, if_neg he]

theorem copyHeaders_wf (l : List (HeaderName × HeaderValues)) (acc : Headers) (h : FMap.WF acc) : FMap.WF (copyHeaders acc l) := by
  unfold copyHeaders
  induction l generalizing acc with
  | nil => exact h
  | cons e l ih => rw [List.foldl_cons]; exact ih _ (by rw [insert_values]; exact FMap.wf_set h _ _)

theorem gate_append_value (acc : Headers) (n : HeaderName) (v : HeaderValue) :
    (acc.append n (.value v)).1 = FMap.set acc n ((acc.get n).getD [] ++ [v]) := by
  unfold Headers.append Headers.get
  cases FMap.get acc n <;> rfl

theorem appendAll_get (n : HeaderName) (vs : List HeaderValue) (acc : Headers) (x : HeaderName) :
    (vs.foldl (fun acc v => (acc.append n (.value v)).1) acc).get x =
      if n = x ∧ vs ≠ [] then some ((acc.get n).getD [] ++ vs) else acc.get x := by
  induction vs generalizing acc with
  | nil => simp
  | cons v vs ih =>
    rw [List.foldl_cons, ih, gate_append_value]
    simp only [Headers.get, FMap.get_set]
    by_cases hx : n = x
    · subst hx
      by_cases hv : vs = []
      · subst hv; simp
      · simp [hv]
    · simp [hx]

theorem appendAll_wf (n : HeaderName) (vs : List HeaderValue) (acc : Headers) (h : FMap.WF acc) :
    FMap.WF (vs.foldl (fun (acc : Headers) v => (acc.append n (.value v)).1) acc) := by
  induction vs generalizing acc with
  | nil => exact h
  | cons v vs ih => rw [List.foldl_cons]; exact ih _ (by rw [gate_append_value]; exact FMap.wf_set h _ _)

theorem copyValues_get (l : List (HeaderName × HeaderValues)) (acc : Headers) (hl : (l.map Prod.fst).Nodup)
    (hne : ∀ e ∈ l, e.2 ≠ []) (ha : ∀ e ∈ l, acc.get e.1 = none) (n : HeaderName) :
    (copyValues acc l).get n = (FMap.get l n).or (acc.get n) := by
  unfold copyValues
  induction l generalizing acc with
  | nil => simp
  | cons e l ih =>
    rw [List.map_cons, List.nodup_cons] at hl
    have h0 := ha e (by simp)
    rw [List.foldl_cons, ih _ hl.2 (fun x hx => hne x (by simp [hx]))]
    · rw [appendAll_get]
      simp only [FMap.get]
      by_cases he : e.1 = n
      · rw [if_pos ⟨he, hne e (by simp)⟩, if_pos he, h0, (FMap.get_eq_none_iff l n).2 (by rw [← he]; exact hl.1)]
        simp
      · rw [if_neg (fun h => he h.1), if_neg he]
    · intro x hx
      rw [appendAll_get, if_neg]
      · exact ha x (by simp [hx])
      · rintro ⟨h1, -⟩
        exact hl.1 (by rw [h1]; exact List.mem_map_of_mem hx)

theorem copyValues_wf (l : List (HeaderName × HeaderValues)) (acc : Headers) (h : FMap.WF acc) : FMap.WF (copyValues acc l) := by
  unfold copyValues
  induction l generalizing acc with
  | nil => exact h
  | cons e l ih => rw [List.foldl_cons]; exact ih _ (appendAll_wf _ _ _ h)

theorem setBody_get (I : BodyI β) (m : Msg β) (b : β) (n : HeaderName) :
    (m.setBody I b).headers.get n =
      if n = s!!"content-type" then (m.headers.get n).or ((I.mime b).map fun d => [d.display]) else m.headers.get n := by
  by_cases h : m.headers.get CONTENT_TYPE = none
  · have := C12_absent I m (.set b) h
    split
    · rename_i hn
      subst hn
      rw [show s!!"content-type" = CONTENT_TYPE from rfl, h, Option.none_or]
      exact this.2
    · rename_i hn
      exact this.1 n hn
  · have := C12_present I m (.set b) h
    rw [show m.setBody I b = MOp.step I m (.set b) from rfl, this]
    split
    · rename_i hn
      subst hn
      cases hg : m.headers.get s!!"content-type" with
      | none => exact absurd hg h
      | some vs => rfl
    · rfl

theorem setBody_wf (I : BodyI β) (m : Msg β) (b : β) (h : FMap.WF m.headers) : FMap.WF (m.setBody I b).headers := by
  show FMap.WF (Msg.copyContentType I { m with body := b }).headers
  unfold Msg.copyContentType
  split
  · exact h
  · split
    · exact FMap.wf_set h _ _
    · exact h

/-- What a message has after a gateway. -/
def SentOn (I : BodyI β) (m m' : Msg β) : Prop :=
  m'.body = m.body ∧ ∀ n, m'.headers.get n =
    if n = s!!"content-type" then (m.headers.get n).or ((I.mime m.body).map fun d => [d.display]) else m.headers.get n

theorem hop_sent (I : BodyI β) {m m' : Msg β} (hs : Sound m.headers) (h : GateHop I m m') : SentOn I m m' ∧ Sound m'.headers := by
  have fin : FMap.WF m'.headers → SentOn I m m' → SentOn I m m' ∧ Sound m'.headers := by
    intro hw hm
    refine ⟨hm, hw, ?_⟩
    intro n vs hv
    rw [hm.2] at hv
    split at hv
    · cases hg : m.headers.get n with
      | some us => rw [hg] at hv; cases hv; exact hs.2 n _ hg
      | none =>
        rw [hg, Option.none_or, Option.map_eq_some_iff] at hv
        obtain ⟨d, -, rfl⟩ := hv
        simp
    · exact hs.2 n vs hv
  have hne : ∀ {l}, m.headers.Perm l → ∀ e ∈ l, e.2 ≠ [] := fun hp e he =>
    hs.2 e.1 e.2 ((FMap.get_eq_some_iff hs.1 e.1 e.2).2 (hp.mem_iff.2 he))
  cases h with
  | @inserted l hp =>
    have hw := hs.1.perm hp
    refine fin (setBody_wf I _ _ (copyHeaders_wf _ _ List.nodup_nil)) ⟨C12_new_body I _ (.set _), fun n => ?_⟩
    rw [setBody_get]
    have : (copyHeaders Headers.new l).get n = m.headers.get n := by
      rw [copyHeaders_get l _ hw, FMap.get_perm hs.1 hp]
      show (m.headers.get n).or none = _
      simp
    simp only [this]
    rfl
  | @appended l hp =>
    have hw := hs.1.perm hp
    refine fin (setBody_wf I _ _ (copyValues_wf _ _ List.nodup_nil)) ⟨C12_new_body I _ (.set _), fun n => ?_⟩
    rw [setBody_get]
    have : (copyValues Headers.new l).get n = m.headers.get n := by
      rw [copyValues_get l _ hw (hne hp) (fun e _ => rfl), FMap.get_perm hs.1 hp]
      show (m.headers.get n).or none = _
      simp
    simp only [this]
    rfl
  | @bodyFirst l hp =>
    have hw := hs.1.perm hp
    refine fin (copyHeaders_wf _ _ (setBody_wf I _ _ List.nodup_nil)) ⟨C12_new_body I _ (.set _), fun n => ?_⟩
    simp only
    rw [copyHeaders_get l _ hw, FMap.get_perm hs.1 hp, setBody_get]
    show (m.headers.get n).or (if n = s!!"content-type" then (none : Option HeaderValues).or _ else none) = _
    split
    · rfl
    · simp

theorem sent_trans (I : BodyI β) {m m' m'' : Msg β} (h1 : SentOn I m m') (h2 : SentOn I m' m'') : SentOn I m m'' := by
  refine ⟨h2.1.trans h1.1, fun n => ?_⟩
  rw [h2.2, h1.2, h1.1]
  split
  · cases m.headers.get n <;> cases I.mime m.body <;> rfl
  · rfl

theorem hops_sent (I : BodyI β) {k : Nat} {m m' : Msg β} (hs : Sound m.headers) (h : GateHops I (k + 1) m m') : SentOn I m m' := by
  induction k generalizing m with
  | zero =>
    cases h with
    | more h1 h2 => cases h2; exact (hop_sent I hs h1).1
  | succ k ih =>
    cases h with
    | more h1 h2 =>
      have := hop_sent I hs h1
      exact sent_trans I this.1 (ih this.2 h2)

theorem sound_run (h : List HOp) (hne : ∀ op ∈ h, Spec.NonemptyOp op) : Sound (HOp.run h) :=
  ⟨HOp.wf_run h, fun n vs hv => (C05_nonempty_partial h hne n vs hv).1⟩

/-- Behind any number of gateways a message has the body it had, and each header with all its values in order; the content
type, too, if it had one. What is missing: without one, it gets the media type of the body. -/
theorem C142_hops_partial (I : BodyI β) (calls : List HOp) (hne : ∀ op ∈ calls, Spec.NonemptyOp op) (b : β) (k : Nat) (m' : Msg β)
    (h : GateHops I (k + 1) ⟨HOp.run calls, b⟩ m') :
    m'.body = b ∧ (∀ n, n ≠ s!!"content-type" → m'.headers.get n = (HOp.run calls).get n) ∧
      m'.headers.get s!!"content-type" = ((HOp.run calls).get s!!"content-type").or ((I.mime b).map fun d => [d.display]) := by
  have := hops_sent I (sound_run calls hne) h
  refine ⟨this.1, fun n hn => ?_, ?_⟩
  · rw [this.2, if_neg hn]
  · rw [this.2, if_pos rfl]

example : ∃ m', GateHops (Body.iface ()) 1 ⟨HOp.run [.insert s!!"a" (.str s!!"b")], (Body.iface ()).empty⟩ m' ∧ m'.headers.get s!!"a" = some [s!!"b"] ∧
    m'.headers.get s!!"content-type" = some [s!!"application/octet-stream"] :=
  ⟨_, .more (.inserted (List.Perm.refl _)) .none, by decide +kernel⟩

/-- The headers are those it had exactly if it had a content type or its body has no media type. -/
theorem C142_same_iff_partial (I : BodyI β) (calls : List HOp) (hne : ∀ op ∈ calls, Spec.NonemptyOp op) (b : β) (k : Nat) (m' : Msg β)
    (h : GateHops I (k + 1) ⟨HOp.run calls, b⟩ m') :
    (∀ n, m'.headers.get n = (HOp.run calls).get n) ↔ (HOp.run calls).get s!!"content-type" ≠ none ∨ I.mime b = none := by
  obtain ⟨-, h1, h2⟩ := C142_hops_partial I calls hne b k m' h
  constructor
  · intro hn
    rw [hn] at h2
    cases hg : (HOp.run calls).get s!!"content-type" with
    | some vs => exact .inl (by simp)
    | none =>
      rw [hg] at h2
      cases hb : I.mime b with
      | none => exact .inr rfl
      | some d => rw [hb] at h2; cases h2
  · intro hc n
    by_cases hn : n = s!!"content-type"
    · subst hn
      rw [h2]
      rcases hc with hc | hc
      · cases hg : (HOp.run calls).get s!!"content-type" with
        | some vs => rfl
        | none => exact absurd hg hc
      · rw [hc]; simp
    · exact h1 n hn

example : ∃ m', GateHops exampleI 2 ⟨HOp.run [.insert s!!"a" (.str s!!"b")], 1⟩ m' ∧ m'.headers = HOp.run [.insert s!!"a" (.str s!!"b")] :=
  ⟨_, .more (.bodyFirst (List.Perm.refl _)) (.more (.appended (List.Perm.refl _)) .none), by decide +kernel⟩

/-- How many gateways there were makes no difference: the message behind more of them answers every lookup as the one behind
the first. -/
theorem C142_settles (I : BodyI β) (calls : List HOp) (hne : ∀ op ∈ calls, Spec.NonemptyOp op) (b : β) (j k : Nat) (m' m'' : Msg β)
    (h' : GateHops I (j + 1) ⟨HOp.run calls, b⟩ m') (h'' : GateHops I (k + 1) ⟨HOp.run calls, b⟩ m'') :
    m'.body = m''.body ∧ ∀ n, m'.headers.get n = m''.headers.get n := by
  have h1 := hops_sent I (sound_run calls hne) h'
  have h2 := hops_sent I (sound_run calls hne) h''
  exact ⟨h1.1.trans h2.1.symm, fun n => by rw [h1.2, h2.2]⟩

example : ∃ m' m'', GateHops exampleI 1 ⟨HOp.run [], 2⟩ m' ∧ GateHops exampleI 2 ⟨HOp.run [], 2⟩ m'' ∧
    m'.headers.get s!!"content-type" = some [s!!"application/json"] ∧ m''.headers.get s!!"content-type" = some [s!!"application/json"] :=
  ⟨_, _, .more (.bodyFirst (List.Perm.refl _)) .none, .more (.inserted (List.Perm.refl _)) (.more (.appended (List.Perm.refl _)) .none),
    by decide +kernel⟩

/-- A message without a body, as requests mostly are, gets a content type at the first gateway. -/
theorem C142_violated_no_body {σ : Type} (e : σ) (calls : List HOp) (hne : ∀ op ∈ calls, Spec.NonemptyOp op)
    (hc : (HOp.run calls).get s!!"content-type" = none) (k : Nat) (m' : Msg (Body σ))
    (h : GateHops (Body.iface e) (k + 1) ⟨HOp.run calls, (Body.iface e).empty⟩ m') :
    m'.headers.get s!!"content-type" = some [s!!"application/octet-stream"] := by
  rw [(C142_hops_partial _ calls hne _ k m' h).2.2, hc]
  rfl

example : ∃ m', GateHops (Body.iface ()) 1 ⟨HOp.run [.append s!!"Accept" (.str s!!"*/*")], (Body.iface ()).empty⟩ m' ∧ m'.headers.get s!!"accept" = some [s!!"*/*"] ∧
    m'.headers.get s!!"content-type" = some [s!!"application/octet-stream"] :=
  ⟨_, .more (.inserted (List.Perm.refl _)) .none, by decide +kernel⟩

/-- A text that was put into the message is read behind the gateways. -/
theorem C142_text (calls : List HOp) (hne : ∀ op ∈ calls, Spec.NonemptyOp op) (s : Str) (k : Nat) (m' : Msg (Body (List Byte)))
    (h : GateHops (Body.iface []) (k + 1) ⟨HOp.run calls, Body.fromString s⟩ m') (ns : List Nat) (hns : ∀ n ∈ ns, n ≠ 0)
    (hl : (utf8Encode s).length < ns.length) (hm : (utf8Encode s).length < 2 ^ 63) :
    m'.body.intoString cursorI ns = some (.ok s) := by
  rw [(C142_hops_partial _ calls hne _ k m' h).1]
  exact C11_string_round_trip s ns hns hl hm

/-- Two gateways, one of each kind. -/
example : ∃ m', GateHops (Body.iface ([] : List Byte)) 2
    ⟨HOp.run [.append s!!"Via" (.str s!!"a"), .append s!!"via" (.str s!!"b")], Body.fromString s!!"hi"⟩ m' ∧
    m'.headers.get s!!"via" = some [s!!"a", s!!"b"] ∧ m'.headers.get s!!"content-type" = some [s!!"text/plain;charset=utf-8"] ∧
    m'.body.intoString cursorI [1, 1, 1] = some (.ok s!!"hi") :=
  ⟨_, .more (.appended (List.Perm.refl _)) (.more (.bodyFirst (List.Perm.refl _)) .none), by decide +kernel⟩

end HT
