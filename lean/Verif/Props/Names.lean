import Verif.Spec.Names
import Verif.Lemmas.Typed
import Verif.Model.Security
import Verif.Model.Auth
import Verif.Model.Content
import Verif.Model.Trace
import Verif.Model.Forwarded
import Verif.Model.Message
import Verif.Model.ServerTiming

/-! Field names of the typed headers: C69. -/

namespace HT
open Spec

theorem isField_of {α : Type} {field : Str} {name : HeaderName} {read : Headers → Res (Option α)}
    (hn : HeaderName.ofStr field = .ok name)
    (h0 : ∀ h : Headers, h.get name = none → read h = .ok none)
    (hr : ∀ h h' : Headers, h.get name = h'.get name → read h = read h') : IsField field name read := by
  have hg : ∀ h : Headers, h.getStr field = .ok (h.get name) := fun h => by
    unfold Headers.getStr; rw [hn]; rfl
  refine ⟨fun h hh => ?_, fun h h' hh => ?_, fun h h' v hh => ?_⟩
  · rw [hg] at hh
    cases hh' : h.get name with
    | none => exact h0 h hh'
    | some vs => rw [hh'] at hh; cases hh
  · rw [hg, hg] at hh
    injection hh with hh
    exact hr h h' hh
  · rw [applyHeader_ok] at hh
    injection hh with hh
    subst hh
    refine ⟨by rw [hg]; exact congrArg _ (get_set_self _ _ _), fun other ha ho => ?_⟩
    have ha' := (spec_ascii_iff _).mp ha
    unfold Headers.getStr
    rw [HeaderName.ofStr_ascii ha']
    simp only [Res.map_ok]
    unfold Headers.get
    rw [FMap.get_set, if_neg]
    intro he
    obtain ⟨hf, rfl⟩ := HeaderName.ofStr_ok_iff.mp hn
    rw [(sameName_iff other field).mpr ⟨ha', hf, he.symm⟩] at ho
    cases ho

theorem isField_readLast {α : Type} {field : Str} {name : HeaderName} {f : HeaderValue → Res α}
    (hn : HeaderName.ofStr field = .ok name) : IsField field name (fun h => readLast h name f) :=
  isField_of hn (fun _ h => readLast_none h) (fun h h' e => by unfold readLast; rw [e])

/-- Each typed header reads and writes the field of its name, and only that. -/
theorem C69_fields :
    IsField s!!"Content-Length" ContentLength.name ContentLength.fromHeaders ∧
    IsField s!!"Expect" Expect.name Expect.fromHeaders ∧
    IsField s!!"Age" Age.name Age.fromHeaders ∧
    IsField s!!"Retry-After" RetryAfter.name RetryAfter.fromHeaders ∧
    IsField s!!"Date" DateHeader.date.name DateHeader.date.fromHeaders ∧
    IsField s!!"Expires" DateHeader.expires.name DateHeader.expires.fromHeaders ∧
    IsField s!!"Last-Modified" DateHeader.lastModified.name DateHeader.lastModified.fromHeaders ∧
    IsField s!!"If-Modified-Since" DateHeader.ifModifiedSince.name DateHeader.ifModifiedSince.fromHeaders ∧
    IsField s!!"If-Unmodified-Since" DateHeader.ifUnmodifiedSince.name DateHeader.ifUnmodifiedSince.fromHeaders ∧
    IsField s!!"ETag" ETag.name ETag.fromHeaders ∧
    IsField s!!"If-Match" IfMatch.name IfMatch.fromHeaders ∧
    IsField s!!"If-None-Match" IfMatch.noneName IfMatch.noneFromHeaders ∧
    IsField s!!"Vary" Vary.name Vary.fromHeaders ∧
    IsField s!!"Clear-Site-Data" ClearSiteData.name ClearSiteData.fromHeaders ∧
    IsField s!!"Allow" Allow.name Allow.fromHeaders ∧
    IsField s!!"Cache-Control" CacheControl.name CacheControl.fromHeaders := by
  refine ⟨isField_readLast (by decide), isField_readLast (by decide), isField_readLast (by decide),
    isField_readLast (by decide), isField_readLast (by decide), isField_readLast (by decide),
    isField_readLast (by decide), isField_readLast (by decide), isField_readLast (by decide),
    isField_readLast (by decide), ?_, ?_, ?_, ?_, ?_, ?_⟩
  · exact isField_of (by decide) (fun h e => by simp only [IfMatch.fromHeaders, readStarList, e])
      (fun h h' e => by simp only [IfMatch.fromHeaders, readStarList, e])
  · exact isField_of (by decide) (fun h e => by simp only [IfMatch.noneFromHeaders, readStarList, e])
      (fun h h' e => by simp only [IfMatch.noneFromHeaders, readStarList, e])
  · exact isField_of (by decide) (fun h e => by simp only [Vary.fromHeaders, readStarList, e])
      (fun h h' e => by simp only [Vary.fromHeaders, readStarList, e])
  · exact isField_of (by decide) (fun h e => by simp only [ClearSiteData.fromHeaders, readStarList, e])
      (fun h h' e => by simp only [ClearSiteData.fromHeaders, readStarList, e])
  · exact isField_of (by decide) (fun h e => by simp only [Allow.fromHeaders, e])
      (fun h h' e => by simp only [Allow.fromHeaders, e])
  · exact isField_of (by decide) (fun h e => by simp only [CacheControl.fromHeaders, e])
      (fun h h' e => by simp only [CacheControl.fromHeaders, e])

example : Age.fromHeaders (HOp.run [.insert s!!"AGE" (.str s!!"12")]) = .ok (some ⟨12, 0⟩) := by decide +kernel

/-- The same for the rest. -/
theorem C69_fields_more {Url : Type} (parse : Str → Option Url) (randId : Nat) :
    IsField s!!"Timing-Allow-Origin" TimingAllowOrigin.name (TimingAllowOrigin.fromHeaders parse) ∧
    IsField s!!"Strict-Transport-Security" Hsts.NAME Hsts.fromHeaders ∧
    IsField s!!"Authorization" Authorization.NAME Authorization.fromHeaders ∧
    IsField s!!"Authorization" Authorization.NAME BasicAuth.fromHeaders ∧
    IsField s!!"WWW-Authenticate" WwwAuthenticate.NAME WwwAuthenticate.fromHeaders ∧
    IsField s!!"traceparent" TraceContext.NAME (TraceContext.fromHeaders randId) ∧
    IsField s!!"Accept-Encoding" AcceptEncoding.name AcceptEncoding.fromHeaders ∧
    IsField s!!"TE" TE.name TE.fromHeaders ∧
    IsField s!!"Accept" Accept.name Accept.fromHeaders ∧
    IsField s!!"Content-Encoding" ContentEncoding.name (readCoding ContentEncoding.name Encoding.fromStr) ∧
    IsField s!!"Transfer-Encoding" TransferEncoding.name (readCoding TransferEncoding.name TEncoding.fromStr) ∧
    IsField s!!"Server-Timing" ServerTiming.name ServerTiming.fromHeaders ∧
    IsField s!!"Forwarded" Forwarded.NAME Forwarded.fromForwardedHeader := by
  refine ⟨?_, isField_readLast (by decide), isField_readLast (by decide), ?_, isField_readLast (by decide),
    ?_, ?_, ?_, ?_, ?_, ?_, ?_, ?_⟩
  · exact isField_of (by decide) (fun h e => by simp only [TimingAllowOrigin.fromHeaders, e])
      (fun h h' e => by simp only [TimingAllowOrigin.fromHeaders, e])
  · refine isField_of (by decide) (fun h e => ?_) (fun h h' e => ?_)
    · unfold BasicAuth.fromHeaders Authorization.fromHeaders
      rw [readLast_none e]
      rfl
    · unfold BasicAuth.fromHeaders Authorization.fromHeaders readLast
      rw [e]
  · exact isField_of (by decide) (fun h e => by simp only [TraceContext.fromHeaders, e])
      (fun h h' e => by simp only [TraceContext.fromHeaders, e])
  · exact isField_of (by decide) (fun h e => by simp only [AcceptEncoding.fromHeaders, AcceptList.fromHeaders, e])
      (fun h h' e => by simp only [AcceptEncoding.fromHeaders, AcceptList.fromHeaders, e])
  · exact isField_of (by decide) (fun h e => by simp only [TE.fromHeaders, AcceptList.fromHeaders, e])
      (fun h h' e => by simp only [TE.fromHeaders, AcceptList.fromHeaders, e])
  · exact isField_of (by decide) (fun h e => by simp only [Accept.fromHeaders, AcceptList.fromHeaders, e])
      (fun h h' e => by simp only [Accept.fromHeaders, AcceptList.fromHeaders, e])
  · exact isField_of (by decide) (fun h e => by simp only [readCoding, e])
      (fun h h' e => by simp only [readCoding, e])
  · exact isField_of (by decide) (fun h e => by simp only [readCoding, e])
      (fun h h' e => by simp only [readCoding, e])
  · exact isField_of (by decide) (fun h e => by simp only [ServerTiming.fromHeaders, e])
      (fun h h' e => by simp only [ServerTiming.fromHeaders, e])
  · exact isField_of (by decide) (fun h e => by simp only [Forwarded.fromForwardedHeader, e])
      (fun h h' e => by simp only [Forwarded.fromForwardedHeader, e])

example : AcceptEncoding.name = s!!"accept-encoding" ∧ Hsts.NAME = s!!"strict-transport-security" := by decide

/-- The names the fallback of `Forwarded` and the content type of a message use. -/
theorem C69_other_names :
    HeaderName.ofStr s!!"X-Forwarded-For" = .ok Forwarded.X_FOR ∧
    HeaderName.ofStr s!!"X-Forwarded-By" = .ok Forwarded.X_BY ∧
    HeaderName.ofStr s!!"X-Forwarded-Proto" = .ok Forwarded.X_PROTO ∧
    HeaderName.ofStr s!!"X-Forwarded-Host" = .ok Forwarded.X_HOST ∧
    HeaderName.ofStr s!!"Content-Type" = .ok CONTENT_TYPE := by decide

example : ∃ h, applyHeader [(s!!"age", [s!!"1"])] DateHeader.date.name (.ok s!!"x") = .ok h ∧
    h.getStr s!!"date" = .ok (some [s!!"x"]) ∧ h.getStr s!!"age" = .ok (some [s!!"1"]) :=
  ⟨_, applyHeader_ok _ _ _, by decide +kernel, by decide +kernel⟩

end HT
