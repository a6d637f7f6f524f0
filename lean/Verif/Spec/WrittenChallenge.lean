import Verif.Spec.WrittenPrefs
import Verif.Spec.Fields

/-!
What other implementations read from a WWW-Authenticate header: `1#challenge` of RFC 7235 (sections 2.1 and 4.1). As both
challenges and their parameters are separated by commas, what stands between two commas is one of a scheme, a scheme with
a `token68`, a scheme with its first parameter, and a further parameter. Schemes and names of parameters are without
regard to case.
-/

namespace HT.Spec

/-- What stands between two commas. -/
inductive ChallengePart where
  | scheme (s : Str)
  | encoded (s t : Str)
  | first (s : Str) (p : Str × Str)
  | param (p : Str × Str)
  deriving DecidableEq, Repr

/-- `token BWS "=" BWS ( token / quoted-string )`. -/
def ParamPair (t : Str) (p : Str × Str) : Prop :=
  ∃ n a b raw, Token n ∧ Ows a ∧ Ows b ∧ ValueText raw p.2 ∧ p.1 = lower n ∧ t = n ++ (a ++ '=' :: (b ++ raw))

/-- A scheme, `1*SP` and something else. -/
def AfterScheme (t s r : Str) : Prop := ∃ n k, Token n ∧ s = lower n ∧ t = n ++ ' ' :: (List.replicate k ' ' ++ r)

def PartText (t : Str) : ChallengePart → Prop
  | .scheme s => Token t ∧ s = lower t
  | .encoded s r => Token68 r ∧ AfterScheme t s r
  | .first s p => ∃ r, ParamPair r p ∧ AfterScheme t s r
  | .param p => ParamPair t p

/-- What comes with a scheme. -/
inductive ChallengeData where
  | encoded (t : Str)
  | params (ps : List (Str × Str))
  deriving DecidableEq, Repr

/-- The challenges of which these are the parts: a parameter belongs to the scheme before it. -/
inductive Challenges : List ChallengePart → List (Str × ChallengeData) → Prop where
  | nil : Challenges [] []
  | encoded {s t ps cs} : Challenges ps cs → Challenges (.encoded s t :: ps) ((s, .encoded t) :: cs)
  | scheme {s qs ps cs} : Challenges ps cs → Challenges (.scheme s :: (qs.map .param ++ ps)) ((s, .params qs) :: cs)
  | first {s q qs ps cs} : Challenges ps cs → Challenges (.first s q :: (qs.map .param ++ ps)) ((s, .params (q :: qs)) :: cs)

/-- The value is read as these challenges. -/
def ChallengesRead (v : Str) (cs : List (Str × ChallengeData)) : Prop :=
  ∃ parts, AnyListed PartText v parts ∧ Challenges parts cs ∧ cs ≠ []

/-- A challenge of this scheme with a realm. -/
def realmOf (s : Scheme) (realm : Str) : Str × ChallengeData :=
  ((match s with
    | .basic => s!!"basic" | .bearer => s!!"bearer" | .digest => s!!"digest" | .hoba => s!!"hoba"
    | .mutual => s!!"mutual" | .negotiate => s!!"negotiate" | .oauth => s!!"oauth" | .scramSha1 => s!!"scram-sha-1"
    | .scramSha256 => s!!"scram-sha-256" | .vapid => s!!"vapid"),
   .params [(s!!"realm", realm), (s!!"charset", s!!"UTF-8")])

end HT.Spec
