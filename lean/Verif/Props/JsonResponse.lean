import Verif.Model.JsonResponse
import Verif.Props.JsonValue

/-! C141: a JSON value given where a body is expected. -/

namespace HT
open Spec

/-- A JSON value is a body without a panic, however deep: of the media type of JSON and with the length of its text, which is
what its reader gets as bytes. -/
theorem C141_body (j : Json) :
    ∃ b, Body.ofValue j = .ok b ∧ b.mime = some Mime.JSON ∧ b.len = some (utf8Encode (jsonText j)).length ∧
      ∀ ns : List Nat, (∀ n ∈ ns, n ≠ 0) → (utf8Encode (jsonText j)).length < ns.length →
        b.intoBytes cursorI ns = some (.ok (utf8Encode (jsonText j))) := by
  refine ⟨_, rfl, rfl, rfl, ?_⟩
  intro ns hns hl
  unfold Body.intoBytes
  have hh := body_holds (I := cursorI) (b := (⟨utf8Encode (jsonText j), some Mime.JSON, some (utf8Encode (jsonText j)).length, 0⟩ : Body (List Byte)))
    (fun l _ => Nat.zero_le _) (cursor_holds _)
  simp only [remaining, Nat.sub_zero, List.take_length] at hh
  rw [readToEnd_finishes Body.Inv (fun b n hb => cursor_body_ready b hb n) (fun l _ => Nat.zero_le _) hh hns hl]
  rfl

example : (Body.ofValue (.arr [.int 1, .null])).map (fun b => (b.len, b.mime)) = .ok (some 8, some Mime.JSON) := by decide +kernel

/-- A JSON value is a response: status 200, the media type of JSON and nothing else in the headers; and its reader gets the value
if arrays and objects are at most 127 deep. Not for deeper ones. -/
theorem C141_response_partial {κ : Type} [DecidableEq κ] {T : κ → Type} (j : Json) (hj : IsValue j) :
    ∃ r : RespVal (Body (List Byte)) T, RespVal.ofValue j = .ok r ∧ r.status.toNat = 200 ∧
      (∀ n, r.msg.headers.get n = if n = s!!"content-type" then some [s!!"application/json"] else none) ∧
      ∀ ns : List Nat, (∀ n ∈ ns, n ≠ 0) → (utf8Encode (jsonText j)).length < ns.length →
        ((r.bodyInto (Body.iface []) fun b => b.intoJson jsonFromSlice cursorI ns).1 = some (.ok j) ↔ Nested 127 j) ∧
        ((r.bodyInto (Body.iface []) fun b => b.intoJson jsonFromSlice cursorI ns).1 = some (.err 422) ↔ ¬ Nested 127 j) := by
  obtain ⟨b, hb, h1, h2, h3⟩ := (C64_json jsonFromSlice (some (utf8Encode (jsonText j)))).2 _ rfl
  have hv : Body.ofValue j = .ok b := by unfold Body.ofValue; rw [hb]
  refine ⟨_, by unfold RespVal.ofValue; rw [hv]; rfl, rfl, ?_, ?_⟩
  · intro n
    have hh : (Msg.setBody (Body.iface []) (Msg.new (Body.iface [])) b).headers =
        (Headers.insert Headers.new CONTENT_TYPE (.value Mime.JSON.toHeaderValue)).1 := by
      cases hb
      rfl
    refine (congrArg (fun h => Headers.get h n) hh).trans ?_
    have hs : Mime.JSON.toHeaderValue = s!!"application/json" := by decide +kernel
    rw [hs]
    show FMap.get (FMap.set [] CONTENT_TYPE [s!!"application/json"]) n = _
    rw [FMap.get_set]
    by_cases h : n = s!!"content-type"
    · rw [if_pos (show CONTENT_TYPE = n from h.symm), if_pos h]
    · rw [if_neg (show ¬ CONTENT_TYPE = n from Ne.symm h), if_neg h]; rfl
  · intro ns hns hl
    have : (Msg.setBody (Body.iface []) (Msg.new (Body.iface [])) b).body = b := C12_new_body _ _ (.set b)
    show (Body.intoJson _ cursorI (Msg.setBody (Body.iface []) (Msg.new (Body.iface [])) b).body ns = _ ↔ _) ∧
      (Body.intoJson _ cursorI (Msg.setBody (Body.iface []) (Msg.new (Body.iface [])) b).body ns = _ ↔ _)
    rw [this, h3 ns hns hl, ← C141_back_iff_partial j hj]
    rw [fromSlice_text j hj]
    by_cases h : jsonDepth j < 128 <;> simp [h]

example : ((RespVal.ofValue (T := fun _ : Unit => Nat) (.obj [(s!!"a", .int 1)])).map fun r =>
    (r.status, r.msg.headers.get s!!"content-type", r.msg.headers.get s!!"date")) = .ok (.ok, some [s!!"application/json"], none) := by
  decide +kernel

end HT
