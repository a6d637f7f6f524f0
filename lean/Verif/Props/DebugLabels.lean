import Verif.Spec.DebugLabels
import Verif.Props.Secrets

/-! C105: what is printed for logging names the type and its fields. -/

namespace HT
open Spec

theorem struct_announces {name : Str} {fs gs : List (Str × Str)} (hne : fs ≠ []) (h : ∀ e ∈ gs, e ∈ fs) :
    Announces name gs (debugStruct name fs) := by
  refine ⟨?_, fun e he => struct_labelled (h e he)⟩
  cases fs with
  | nil => exact absurd rfl hne
  | cons f fs =>
    refine ⟨s!!" " ++ (join s!!", " ((f :: fs).map fun e => e.1 ++ s!!": " ++ e.2) ++ s!!" }"), ?_⟩
    simp [debugStruct]

/-- C105: each text begins with the name of the type, and each field stands behind its own name: a realm is not taken for
credentials, nor an id for another. -/
theorem C105_labels (pr : Char → Bool) :
    (∀ a : Authorization, Announces s!!"Authorization"
      [(s!!"scheme", a.scheme.debug), (s!!"credentials", debugStr pr a.credentials)] (a.debug pr)) ∧
    (∀ a : BasicAuth, Announces s!!"BasicAuth"
      [(s!!"username", debugStr pr a.username), (s!!"password", debugStr pr a.password)] (a.debug pr)) ∧
    (∀ a : WwwAuthenticate, Announces s!!"WwwAuthenticate"
      [(s!!"scheme", a.scheme.debug), (s!!"realm", debugStr pr a.realm)] (a.debug pr)) ∧
    (∀ a : Hsts, Announces s!!"StrictTransportSecurity" [(s!!"max_age", a.maxAge.debug), (s!!"preload", debugBool a.preload),
      (s!!"include_subdomains", debugBool a.includeSubdomains)] a.debug) ∧
    (∀ d : Duration, Announces s!!"Age" [(s!!"dur", d.debug)] (Age.debug d)) ∧
    (∀ n : Nat, Announces s!!"ContentLength" [(s!!"length", dec n)] (ContentLength.debug n)) ∧
    (∀ c : TraceContext, Announces s!!"TraceContext" [(s!!"id", dec c.id), (s!!"version", dec c.version),
      (s!!"trace_id", dec c.traceId), (s!!"parent_id", debugOpt dec c.parentId), (s!!"flags", dec c.flags)] c.debug) ∧
    (∀ f : Forwarded, Announces s!!"Forwarded" [(s!!"by", debugOpt (debugStr pr) f.by'), (s!!"host", debugOpt (debugStr pr) f.host),
      (s!!"forwarded_for", debugList (f.forwardedFor.map (debugStr pr))), (s!!"proto", debugOpt (debugStr pr) f.proto)] (f.debug pr)) ∧
    (∀ m : Mime, Announces s!!"Mime" [(s!!"essence", debugStr pr m.essence), (s!!"basetype", debugStr pr m.basetype),
      (s!!"subtype", debugStr pr m.subtype), (s!!"is_utf8", debugBool m.isUtf8),
      (s!!"params", debugList (m.params.map (Mime.debugParam pr)))] (m.debug pr)) ∧
    (∀ m : Mime, Announces s!!"ContentType" [(s!!"media_type", m.debug pr)] (ContentType.debug pr m)) ∧
    (∀ m : Metric, Announces s!!"Metric" [(s!!"name", debugStr pr m.name), (s!!"dur", debugOpt Duration.debug m.dur),
      (s!!"desc", debugOpt (debugStr pr) m.desc)] (m.debug pr)) ∧
    (∀ ms : List Metric, Announces s!!"ServerTiming" [(s!!"timings", debugList (ms.map (Metric.debug pr)))] (ServerTiming.debug pr ms)) ∧
    ∀ h : Headers, Announces s!!"Trailers" [(s!!"headers", h.debug pr)] (Trailers.debug pr h) := by
  refine ⟨?_, ?_, ?_, ?_, ?_, ?_, ?_, ?_, ?_, ?_, ?_, ?_, ?_⟩ <;> intro a <;>
    refine struct_announces (by simp) fun e he => ?_ <;>
    simp only [List.mem_cons, List.not_mem_nil, or_false] at he ⊢ <;>
    first | exact he | tauto

example : Age.debug ⟨3, 0⟩ = s!!"Age { dur: 3s }" ∧ ContentLength.debug 12 = s!!"ContentLength { length: 12 }" := by
  constructor <;> decide +kernel

/-- C105: a parameter of a media type tells its name from its value, an entity tag whether it is weak, and a message whether it is a
request or a response. -/
theorem C105_kinds {Url σ κ : Type} {T : κ → Type} (pr : Char → Bool) (pu : Url → Str) :
    (∀ p : Str × Str, Mime.debugParam pr p = s!!"(ParamName(" ++ debugStr pr p.1 ++ s!!"), ParamValue(" ++ debugStr pr p.2 ++ s!!"))") ∧
    (∀ s, (ETag.strong s).debug pr = s!!"Strong(" ++ debugStr pr s ++ s!!")") ∧
    (∀ s, (ETag.weak s).debug pr = s!!"Weak(" ++ debugStr pr s ++ s!!")") ∧
    (∀ r : ReqVal Url (Body σ) T, s!!"Request {" <+: r.debug pr pu ∧ Labelled s!!"ext" s!!"Extensions" (r.debug pr pu)) ∧
    ∀ r : RespVal (Body σ) T, s!!"Response {" <+: r.debug pr ∧ Labelled s!!"ext" s!!"Extensions" (r.debug pr) := by
  refine ⟨fun p => ?_, fun s => ?_, fun s => ?_, fun r => ?_, fun r => ?_⟩
  · simp [Mime.debugParam, debugTuple]
  · simp [ETag.debug, debugTuple]
  · simp [ETag.debug, debugTuple]
  · have h : Announces s!!"Request" [(s!!"ext", s!!"Extensions")] (r.debug pr pu) :=
      struct_announces (by simp) fun e he => by
        obtain rfl := List.mem_singleton.1 he
        show (_, r.ext.debug) ∈ _
        simp only [List.mem_cons, true_or, or_true]
    exact ⟨h.1, h.2 (s!!"ext", s!!"Extensions") (by simp)⟩
  · have h : Announces s!!"Response" [(s!!"ext", s!!"Extensions")] (r.debug pr) :=
      struct_announces (by simp) fun e he => by
        obtain rfl := List.mem_singleton.1 he
        show (_, r.ext.debug) ∈ _
        simp only [List.mem_cons, true_or, or_true]
    exact ⟨h.1, h.2 (s!!"ext", s!!"Extensions") (by simp)⟩

example (pr : Char → Bool) : (ETag.weak s!!"a").debug pr = s!!"Weak(\"a\")" := rfl

end HT
