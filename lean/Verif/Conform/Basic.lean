import Verif.Model.Auth
import Verif.Model.Build
import Verif.Model.Location
import Verif.Model.ServerTiming
import Verif.Model.Trace
import Verif.Model.Security

/-!
The unit tests of the repository restated about the model: each `example` is one assertion, so the model agrees with the code
wherever the code's own tests look. These are checks of the model, not claims; the claims are in `Verif/Props`.

Tests of src/trace, src/server, src/auth and src/cache.
-/

namespace HT.Conform

/-- A header written into an empty collection and read from it. -/
def trip {α : Type} (name : HeaderName) (value : Res HeaderValue) (read : Headers → Res (Option α)) : Res (Option α) :=
  (applyHeader [] name value).bind read

/-- A text inserted into an empty collection and read from it. -/
def given {α : Type} (name : Str) (text : Str) (read : Headers → Res (Option α)) : Res (Option α) :=
  match Headers.insert [] (lower name) (.str text) with
  | (h, .ok _) => read h
  | _ => .panic

/-! src/trace/server_timing/metric.rs:84-101 -/

example : (Metric.new s!!"Server" none none).map Metric.text = .ok s!!"Server" := by decide +kernel
example : (Metric.new s!!"Server" (some ⟨1, 0⟩) none).map Metric.text = .ok s!!"Server; dur=1000" := by decide +kernel
example : (Metric.new s!!"Server" none (some s!!"A server timing")).map Metric.text =
    .ok s!!"Server; desc=\"A server timing\"" := by decide +kernel
example : (Metric.new s!!"Server" (some ⟨1, 0⟩) (some s!!"A server timing")).map Metric.text =
    .ok s!!"Server; dur=1000; desc=\"A server timing\"" := by decide +kernel

/-! src/trace/server_timing/mod.rs:223-258 -/

example : trip ServerTiming.name (ServerTiming.value [⟨s!!"server", none, none⟩]) ServerTiming.fromHeaders =
    .ok (some [⟨s!!"server", none, none⟩]) := by decide +kernel
example : given ServerTiming.name s!!"server; <nori ate your param omnom>" ServerTiming.fromHeaders = .err 400 := by
  decide +kernel

/-! src/trace/server_timing/parse.rs:103-167; the texts of errors are not modelled -/

example : [s!!"Server", s!!"Server "].map Metric.parseEntry = List.replicate 2 (.ok ⟨s!!"Server", none, none⟩) := by
  decide +kernel
example : [s!!"Server ;", s!!"Server; ", s!!"Server; dur=1000;", s!!"DB; desc=\"db", s!!"Server; desc=a_db;",
    s!!"Server; dur=1000; desc=\"a server\";"].map Metric.parseEntry = List.replicate 6 (.err 500) := by decide +kernel
example : [s!!"Server; dur=1000", s!!"Server; dur =1000", s!!"Server; dur= 1000", s!!"Server; dur = 1000"].map Metric.parseEntry =
    List.replicate 4 (.ok ⟨s!!"Server", some ⟨1, 0⟩, none⟩) := by decide +kernel
example : [s!!"DB; desc=\"a db\"", s!!"DB; desc =\"a db\"", s!!"DB; desc= \"a db\"", s!!"DB; desc = \"a db\""].map
    Metric.parseEntry = List.replicate 4 (.ok ⟨s!!"DB", none, some s!!"a db"⟩) := by decide +kernel
example : Metric.parseEntry s!!"DB; desc=a_db" = .ok ⟨s!!"DB", none, some s!!"a_db"⟩ := by decide +kernel
example : Metric.parseEntry s!!"Server; dur=1000; desc=\"a server\"" = .ok ⟨s!!"Server", some ⟨1, 0⟩, some s!!"a server"⟩ := by
  decide +kernel
example : Metric.parseHeader s!!"db;dur=53, app;dur=47.2" [] =
    .ok [⟨s!!"db", some ⟨0, 53000000⟩, none⟩, ⟨s!!"app", some ⟨0, 47200000⟩, none⟩] := by decide +kernel

/-! src/trace/trace_context.rs:224-261 -/

example : given TraceContext.NAME s!!"00-01-deadbeef-00" (TraceContext.fromHeaders 7) =
    .ok (some ⟨7, 0, 1, some 3735928559, 0⟩) := by decide +kernel
example : TraceContext.sampled ⟨7, 0, 1, some 3735928559, 0⟩ = false := by decide
example : (TraceContext.new 7 8).version = 0 ∧ (TraceContext.new 7 8).parentId = none ∧ (TraceContext.new 7 8).flags = 1 ∧
    (TraceContext.new 7 8).sampled = true := by decide
example : (given TraceContext.NAME s!!"00-01-02-00" (TraceContext.fromHeaders 7)).map (·.map (·.sampled)) = .ok (some false) ∧
    (given TraceContext.NAME s!!"00-01-02-01" (TraceContext.fromHeaders 7)).map (·.map (·.sampled)) = .ok (some true) := by
  decide +kernel

/-! src/server/allow.rs:181-193 -/

example : (trip Allow.name (Allow.value (Allow.run [] [.put, .post])) Allow.fromHeaders).map
    (·.map fun a => (Allow.contains a .put, Allow.contains a .post)) = .ok (some (true, true)) := by decide +kernel

/-! src/auth/authorization.rs:114-137, src/auth/basic_auth.rs:120-143, src/auth/www_authenticate.rs:136-164 -/

example : trip Authorization.NAME (.ok (Authorization.headerValue ⟨.basic, s!!"0xdeadbeef202020"⟩)) Authorization.fromHeaders =
    .ok (some ⟨.basic, s!!"0xdeadbeef202020"⟩) := by decide +kernel
example : given Authorization.NAME s!!"<nori ate the tag. yum.>" Authorization.fromHeaders = .err 400 := by decide +kernel
example : trip Authorization.NAME (.ok (BasicAuth.headerValue ⟨s!!"nori", s!!"secret_fish!!"⟩)) BasicAuth.fromHeaders =
    .ok (some ⟨s!!"nori", s!!"secret_fish!!"⟩) := by decide +kernel
example : given Authorization.NAME s!!"<nori ate the tag. yum.>" BasicAuth.fromHeaders = .err 400 := by decide +kernel
example : (applyHeader [] WwwAuthenticate.NAME (.ok (WwwAuthenticate.headerValue ⟨.basic, s!!"Access to the staging site"⟩))).map
    (·.get s!!"www-authenticate") = .ok (some [s!!"Basic realm=\"Access to the staging site\", charset=\"UTF-8\""]) := by
  decide +kernel
example : trip WwwAuthenticate.NAME (.ok (WwwAuthenticate.headerValue ⟨.basic, s!!"Access to the staging site"⟩))
    WwwAuthenticate.fromHeaders = .ok (some ⟨.basic, s!!"Access to the staging site"⟩) := by decide +kernel
example : given WwwAuthenticate.NAME s!!"<nori ate the tag. yum.>" WwwAuthenticate.fromHeaders = .err 400 := by decide +kernel

/-! src/cache/age.rs:91-108, src/cache/cache_control/mod.rs:22-53, src/cache/expires.rs:92-113 -/

example : trip Age.name (Age.value ⟨12, 0⟩) Age.fromHeaders = .ok (some ⟨12, 0⟩) := by decide +kernel
example : given Age.name s!!"<nori ate the tag. yum.>" Age.fromHeaders = .err 400 := by decide +kernel
example : trip CacheControl.name (CacheControl.value (CacheControl.run [.push .immutable, .push .noStore]))
    CacheControl.fromHeaders = .ok (some [.immutable, .noStore]) := by decide +kernel
example : given CacheControl.name s!!"barrel_roll" CacheControl.fromHeaders = .ok (some []) := by decide +kernel
example : given CacheControl.name s!!"min-fresh=0.9" CacheControl.fromHeaders = .err 400 := by decide +kernel
example : given DateHeader.expires.name s!!"<nori ate the tag. yum.>" DateHeader.expires.fromHeaders = .err 400 := by
  decide +kernel

/-! src/cache/clear_site_data/mod.rs:247-297 -/

example : trip ClearSiteData.name (ClearSiteData.value (StarList.new.run [.list (.push .cache), .list (.push .cookies)]))
    ClearSiteData.fromHeaders = .ok (some ⟨[.cache, .cookies], false⟩) := by decide +kernel
example : trip ClearSiteData.name (ClearSiteData.value (StarList.new.run [.list (.push .cache), .setWildcard true]))
    ClearSiteData.fromHeaders = .ok (some ⟨[.cache], true⟩) := by decide +kernel
example : given s!!"clear-site-data" s!!"\"cookies\"" ClearSiteData.fromHeaders = .ok (some ⟨[.cookies], false⟩) := by decide +kernel
example : given s!!"clear-site-data" s!!"\"*\"" ClearSiteData.fromHeaders = .ok (some ⟨[], true⟩) := by decide +kernel

end HT.Conform
