import Verif.Props.Simple
import Verif.Props.Lists
import Verif.Props.Allow
import Verif.Props.Cache
import Verif.Props.Security
import Verif.Props.Auth
import Verif.Props.Content
import Verif.Props.Mime
import Verif.Props.Trace
import Verif.Model.ServerTiming
import Verif.Spec.Names

/-! Malformed peer input: C62. -/

namespace HT
open Spec

theorem readsCleanly_of {α : Type} {s : Nat} {n : HeaderName} {read : Headers → Res (Option α)}
    (h0 : ∀ h : Headers, h.get n = none → read h = .ok none)
    (h1 : ∀ (h : Headers) vs v, h.get n = some (vs ++ [v]) → (∃ x, read h = .ok (some x)) ∨ read h = .err s) :
    ReadsCleanly s n read := by
  intro h hne
  cases hg : h.get n with
  | none => exact .inl ⟨none, h0 h hg⟩
  | some vs =>
    rcases nil_or_snoc vs with rfl | ⟨a, b, rfl⟩
    · exact absurd hg hne
    · rcases h1 h a b hg with ⟨x, hx⟩ | hx
      · exact .inl ⟨_, hx⟩
      · exact .inr hx

/-- Reading these headers from any values a peer may send succeeds, finds nothing, or fails with 400. -/
theorem C62_client_errors_partial {Url : Type} (parse : Str → Option Url) :
    ReadsCleanly 400 s!!"content-length" ContentLength.fromHeaders ∧
    ReadsCleanly 400 s!!"expect" Expect.fromHeaders ∧
    ReadsCleanly 400 s!!"retry-after" RetryAfter.fromHeaders ∧
    (∀ d : DateHeader, ReadsCleanly 400 d.name d.fromHeaders) ∧
    ReadsCleanly 400 s!!"etag" ETag.fromHeaders ∧
    ReadsCleanly 400 s!!"if-match" IfMatch.fromHeaders ∧
    ReadsCleanly 400 s!!"if-none-match" IfMatch.noneFromHeaders ∧
    ReadsCleanly 400 s!!"cache-control" CacheControl.fromHeaders ∧
    ReadsCleanly 400 s!!"timing-allow-origin" (TimingAllowOrigin.fromHeaders parse) ∧
    ReadsCleanly 400 s!!"strict-transport-security" Hsts.fromHeaders ∧
    ReadsCleanly 400 s!!"authorization" Authorization.fromHeaders ∧
    ReadsCleanly 400 s!!"authorization" BasicAuth.fromHeaders ∧
    ReadsCleanly 400 s!!"www-authenticate" WwwAuthenticate.fromHeaders := by
  refine ⟨?_, ?_, ?_, ?_, ?_, ?_, ?_, ?_, ?_, ?_, ?_, ?_, ?_⟩
  · exact readsCleanly_of (fun h => (C42_reads h).1) fun h vs v hv => ((C42_reads h).2 vs v hv).2
  · refine readsCleanly_of (fun h => (C59_reads h).1) fun h vs v hv => ?_
    rw [(C59_reads h).2 vs v hv]
    split
    · exact .inl ⟨(), rfl⟩
    · exact .inr rfl
  · exact readsCleanly_of (fun h => (C58_reads h).1) fun h vs v hv => ((C58_reads h).2 vs v hv).2.2
  · exact fun d => readsCleanly_of (fun h => (C29_reads d h).1) fun h vs v hv => ((C29_reads d h).2 vs v hv).2
  · exact readsCleanly_readLast _ _ etag_parse_clean
  · exact readsCleanly_of (fun h hn => by simp only [IfMatch.fromHeaders, readStarList, show h.get IfMatch.name = none from hn])
      fun h vs v hv => (C34_reads h _ false hv).2
  · exact readsCleanly_of (fun h hn => by simp only [IfMatch.noneFromHeaders, readStarList, show h.get IfMatch.noneName = none from hn])
      fun h vs v hv => (C34_reads h _ true hv).2
  · refine readsCleanly_of (fun h hn => by simp only [CacheControl.fromHeaders, show h.get CacheControl.name = none from hn])
      fun h vs v hv => ?_
    rw [cache_read hv]
    rcases Res.mapM_clean (l := listItems (vs ++ [v])) (fun t _ => cache_part_clean t) with ⟨os, h⟩ | h
    · left; rw [h]; exact ⟨_, rfl⟩
    · right; rw [h]; rfl
  · exact readsCleanly_of (fun h hn => by simp only [TimingAllowOrigin.fromHeaders, show h.get TimingAllowOrigin.name = none from hn])
      fun h vs v hv => (C52_reads parse h _ hv).2
  · exact readsCleanly_of (fun h => (C51_reads h).1) fun h vs v hv => ((C51_reads h).2 vs v hv).2.2
  · exact readsCleanly_of (fun h => (C45_reads h).1) fun h vs v hv => ((C45_reads h).2 vs v hv).2
  · exact readsCleanly_of (fun h => (C46_reads h).1) fun h vs v hv => ((C46_reads h).2 vs v hv).2
  · exact readsCleanly_of (fun h => (C47_reads h).1) fun h vs v hv => ((C47_reads h).2 vs v hv).2

example : ContentLength.fromHeaders [(s!!"content-length", [s!!"1e3"])] = .err 400 := by decide +kernel
example : IfMatch.fromHeaders [(s!!"if-match", [s!!"\"a\", b"])] = .err 400 := by decide +kernel

theorem failsWithin_clean {α : Type} {r : Res α} {s : Nat} {ss : List Nat} (h : r.Clean s) (hs : s ∈ ss) :
    FailsWithin ss r := h.imp id fun h => ⟨s, hs, h⟩

theorem failsWithin_bind {α β : Type} {r : Res α} {f : α → Res β} {ss : List Nat} (h : FailsWithin ss r)
    (hf : ∀ x, FailsWithin ss (f x)) : FailsWithin ss (r.bind f) := by
  rcases h with ⟨x, rfl⟩ | ⟨s, hs, rfl⟩
  · exact hf x
  · exact .inr ⟨s, hs, rfl⟩

theorem failsWithin_map {α β : Type} {r : Res α} {f : α → β} {ss : List Nat} (h : FailsWithin ss r) :
    FailsWithin ss (r.map f) := by
  rcases h with ⟨x, rfl⟩ | ⟨s, hs, rfl⟩
  · exact .inl ⟨_, rfl⟩
  · exact .inr ⟨s, hs, rfl⟩

theorem acceptLoop_within {α : Type} {parse : Str → Res (Option (Proposal α))} {ss : List Nat}
    (hp : ∀ t, FailsWithin ss (parse t)) (parts : List Str) :
    ∀ acc, FailsWithin ss (AcceptList.loop parse parts acc) := by
  induction parts with
  | nil => exact fun acc => .inl ⟨acc, rfl⟩
  | cons t ts ih =>
    intro acc
    unfold AcceptList.loop
    simp only
    split
    · exact ih _
    · split
      · exact ih _
      · refine failsWithin_bind (hp _) fun e => ?_
        cases e with
        | none => exact ih _
        | some p => exact ih _

theorem acceptList_within {α : Type} {parse : Str → Res (Option (Proposal α))} {ss : List Nat}
    (hp : ∀ t, FailsWithin ss (parse t)) (name : HeaderName) (h : Headers) :
    FailsWithin ss (AcceptList.fromHeaders name parse h) := by
  unfold AcceptList.fromHeaders
  split
  · exact .inl ⟨_, rfl⟩
  · exact failsWithin_map (acceptLoop_within hp _ _)

theorem proposal_within {α : Type} (coding : Str → Option α) (t : Str) :
    FailsWithin [400, 500] (Proposal.fromStr coding t) := by
  have hn : ∀ c w, FailsWithin [400, 500] (Proposal.new (α := α) c w) := by
    intro c w
    unfold Proposal.new
    split
    · split
      · exact .inl ⟨_, rfl⟩
      · exact .inr ⟨500, by simp, rfl⟩
    · exact .inl ⟨_, rfl⟩
  unfold Proposal.fromStr
  split
  · rename_i h
    exact absurd h (split_ne_nil _ _)
  · split
    · exact .inl ⟨_, rfl⟩
    · split
      · exact failsWithin_map (hn _ _)
      · exact failsWithin_bind (failsWithin_clean (parseWeight_clean _) (by simp)) fun w => failsWithin_map (hn _ _)

theorem media_within (t : Str) : FailsWithin [500] (Accept.parse t) := by
  have hn : ∀ c w, FailsWithin [500] (Proposal.newMedia c w) := by
    intro c w
    unfold Proposal.newMedia
    split
    · split
      · exact .inl ⟨_, rfl⟩
      · exact .inr ⟨500, by simp, rfl⟩
    · exact .inl ⟨_, rfl⟩
  unfold Accept.parse Proposal.mediaFromStr
  refine failsWithin_map (failsWithin_bind (failsWithin_clean (C23_never_panics t) (by simp)) fun m => ?_)
  split
  · exact hn _ _
  · refine failsWithin_bind ?_ fun w => hn _ _
    cases Fl.parse f32Format _ with
    | none => exact .inr ⟨500, by simp, rfl⟩
    | some x => exact .inl ⟨x, rfl⟩

/-- These headers never panic either, but some malformed values are reported as a server error
(`C62_violated_status`); reading Vary from ASCII values does not fail at all. -/
theorem C62_no_panic_partial (h : Headers) :
    FailsWithin [400, 500] (AcceptEncoding.fromHeaders h) ∧
    FailsWithin [400, 500] (TE.fromHeaders h) ∧
    FailsWithin [500] (Accept.fromHeaders h) ∧
    FailsWithin [500] (Allow.fromHeaders h) ∧
    FailsWithin [500] (Vary.fromHeaders h) ∧
    ((∀ vs, h.get s!!"vary" = some vs → ∀ v ∈ vs, Ascii v) → ∃ x, Vary.fromHeaders h = .ok x) := by
  refine ⟨acceptList_within (proposal_within _) _ _, acceptList_within (proposal_within _) _ _,
    acceptList_within media_within _ _, ?_, ?_, ?_⟩
  · cases hg : h.get s!!"allow" with
    | none => exact .inl ⟨none, by simp only [Allow.fromHeaders, show h.get Allow.name = none from hg]⟩
    | some vs =>
      obtain ⟨h1, h2⟩ := C44_reads h vs hg
      by_cases hm : ∀ t ∈ listItems vs, ∃ m : Method, sameName t m.asStr = true
      · obtain ⟨ms, e, -⟩ := h1 hm
        exact .inl ⟨_, e⟩
      · refine .inr ⟨500, by simp, h2 ?_⟩
        by_contra hc
        refine hm fun t ht => ?_
        by_contra hx
        refine hc ⟨t, ht, fun m => ?_⟩
        cases hb : sameName t m.asStr with
        | false => rfl
        | true => exact absurd ⟨m, hb⟩ hx
  · cases hg : h.get s!!"vary" with
    | none => exact .inl ⟨none, by simp only [Vary.fromHeaders, readStarList, show h.get Vary.name = none from hg]⟩
    | some vs =>
      have hr : Vary.fromHeaders h = _ := readStarList_some hg
      rw [hr]
      refine failsWithin_map (failsWithin_clean (Res.mapM_clean fun t _ => ?_) (List.mem_singleton_self 500))
      unfold HeaderName.fromStr
      split
      · exact .inl ⟨_, rfl⟩
      · exact .inr rfl
  · intro ha
    cases hg : h.get s!!"vary" with
    | none => exact ⟨none, by simp only [Vary.fromHeaders, readStarList, show h.get Vary.name = none from hg]⟩
    | some vs => exact ⟨_, C35_reads h vs hg (ha vs hg)⟩

example : AcceptEncoding.fromHeaders (oneHeader s!!"accept-encoding" s!!"gzip;q=x") = .err 400 ∧
    Allow.fromHeaders (oneHeader s!!"allow" s!!"GET, FOO BAR") = .err 500 ∧
    Vary.fromHeaders (oneHeader s!!"vary" s!!"é") = .err 500 := by decide +kernel

/-- `Age` panics exactly on the numerals from 2^64 - 2^10 up to the largest that fits; otherwise it reads
or fails with 400. -/
theorem C62_age_partial (h : Headers) (vs : List Str) (v : Str) (hv : h.get s!!"age" = some (vs ++ [v])) :
    (Age.fromHeaders h = .panic ↔ ∃ n, Numeral v n ∧ 2 ^ 64 - 2 ^ 10 ≤ n ∧ n < 2 ^ 64) ∧
    (Age.fromHeaders h = .panic ∨ (∃ d, Age.fromHeaders h = .ok (some d)) ∨ Age.fromHeaders h = .err 400) := by
  have hr : Age.fromHeaders h = _ := readLast_snoc hv
  rw [hr]
  cases hp : parseUInt u64Max1 v with
  | none =>
    refine ⟨⟨fun e => ?_, ?_⟩, .inr (.inr rfl)⟩
    · cases e
    · rintro ⟨n, h1, -, h2⟩
      rw [parseUInt_iff.mpr ⟨h1, show n < u64Max1 from h2⟩] at hp
      cases hp
  | some n =>
    obtain ⟨h1, h2⟩ := parseUInt_iff.mp hp
    have hge := natToF64_ge_iff (show n < 2 ^ 64 from h2)
    simp only [Res.ofOption_some, Res.status_ok, Res.bind_ok]
    unfold Age.secsF64
    split
    · rename_i hlt
      refine ⟨⟨fun e => ?_, ?_⟩, .inr (.inl ⟨_, rfl⟩)⟩
      · cases e
      · rintro ⟨k, h3, h4, -⟩
        have := numeral_unique h1 h3
        omega
    · rename_i hlt
      exact ⟨⟨fun _ => ⟨n, h1, by omega, h2⟩, fun _ => rfl⟩, .inl rfl⟩

example : (oneHeader s!!"age" s!!"18446744073709551615").get s!!"age" = some ([] ++ [s!!"18446744073709551615"]) ∧
    Age.fromHeaders (oneHeader s!!"age" s!!"18446744073709551615") = .panic ∧
    Age.fromHeaders (oneHeader s!!"age" s!!"x") = .err 400 := by decide +kernel

/-- C62 is violated: these texts, all of which a peer can send, crash the reader. -/
theorem C62_violated_panics (r : Nat) :
    Age.fromHeaders [(s!!"age", [s!!"18446744073709551615"])] = .panic ∧
    ClearSiteData.fromHeaders [(s!!"clear-site-data", [s!!"\"clientHints\""])] = .panic ∧
    readCoding ContentEncoding.name Encoding.fromStr [(s!!"content-encoding", [s!!"compress"])] = .panic ∧
    readCoding TransferEncoding.name TEncoding.fromStr [(s!!"transfer-encoding", [s!!"gzip, chunked"])] = .panic ∧
    ServerTiming.fromHeaders [(s!!"server-timing", [s!!"a; dur=-1"])] = .panic ∧
    TraceContext.fromHeaders r [(s!!"traceparent", [s!!"00"])] = .panic := by
  refine ⟨by decide +kernel, by decide +kernel, by decide +kernel, by decide +kernel, by decide +kernel, ?_⟩
  rfl

/-- C62 is violated in the status: these texts of the peer are reported as errors of the server. -/
theorem C62_violated_status (r : Nat) :
    AcceptEncoding.fromHeaders [(s!!"accept-encoding", [s!!"gzip;q=2"])] = .err 500 ∧
    TE.fromHeaders [(s!!"te", [s!!"gzip;q=2"])] = .err 500 ∧
    Accept.fromHeaders [(s!!"accept", [s!!"text"])] = .err 500 ∧
    Allow.fromHeaders [(s!!"allow", [s!!"FOO"])] = .err 500 ∧
    TraceContext.fromHeaders r [(s!!"traceparent", [s!!"xx-1-1-1"])] = .err 500 := by
  refine ⟨by decide +kernel, by decide +kernel, by decide +kernel, by decide +kernel, ?_⟩
  rfl

end HT
