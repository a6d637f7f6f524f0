import Verif.Model.Simple
import Verif.Model.Security
import Verif.Spec.Clock

/-! A client that keeps the policies of Strict-Transport-Security by host (RFC 6797, 8): which requests it makes secure. -/

namespace HT.Spec

/-- A host name by its labels; `www.example.org` is `["www", "example", "org"]`. -/
abbrev Domain := List Str

/-- For each host, until when its policy holds, in nanoseconds, and whether it is for the subdomains too. -/
abbrev HstsStore := Domain → Option (Nat × Bool)

/-- A host gives a policy at some time: it replaces the one the host gave before. -/
def HstsStore.note (st : HstsStore) (host : Domain) (time : Nat) (p : Hsts) : HstsStore :=
  fun x => if x = host then some (time + len p.maxAge, p.includeSubdomains) else st x

/-- A request to `x` at `time` has to be secure: a policy holds that `x` gave itself, or a domain that `x` is a subdomain
of gave for its subdomains. -/
def HstsStore.Secured (st : HstsStore) (x : Domain) (time : Nat) : Prop :=
  ∃ sub host e b, x = sub ++ host ∧ st host = some (e, b) ∧ time < e ∧ (sub = [] ∨ b = true)

/-- A response from `host` at `time`, with the headers `resp` into which the policy was written. -/
structure StsVisit where
  host : Domain
  time : Nat
  policy : Hsts
  resp : Headers

/-- What the hosts asked for. -/
def stsAsked (vs : List StsVisit) : HstsStore :=
  vs.foldl (fun st v => st.note v.host v.time v.policy) fun _ => none

/-- What the client knows: it reads the header of each response, and passes over one that it cannot read. -/
def stsLearned (vs : List StsVisit) : HstsStore :=
  vs.foldl (fun st v =>
    match (applyHeader v.resp s!!"strict-transport-security" (.ok v.policy.headerValue)).bind Hsts.fromHeaders with
    | .ok (some p) => st.note v.host v.time p
    | _ => st) fun _ => none

/-- After any responses with policies out of `ps`, the client makes exactly the requests secure that have to be. -/
def SecuresRight (ps : Hsts → Prop) : Prop :=
  ∀ vs x time, (∀ v ∈ vs, ps v.policy ∧ v.time ≤ time) →
    ((stsLearned vs).Secured x time ↔ (stsAsked vs).Secured x time)

end HT.Spec
