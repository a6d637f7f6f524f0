import Verif.Spec.Accept
import Verif.Model.Location

/-! A request stating preferences and the response to it. -/

namespace HT.Spec

/-- A client writes its preferences `prefs` into the request headers `req` under `ask`; the server reads them from there
with `heard`, negotiates with `neg`, and writes what was chosen into the response headers `resp` under `tell`; the client
reads that with `told`. -/
def exchange {α : Type} (ask : HeaderName) (prefs : Res HeaderValue) (heard : Headers → Res (Option (AcceptList α)))
    (neg : AcceptList α → Res α) (tell : HeaderName) (choice : α → Res HeaderValue)
    (told : Headers → Res (Option α)) (req resp : Headers) : Res (Option α) :=
  (applyHeader req ask prefs).bind fun req' =>
    (heard req').bind fun a =>
      match a with
      | none => .ok none
      | some a => (neg a).bind fun r => (applyHeader resp tell (choice r)).bind told

/-- An exchange about the coding of a response: Accept-Encoding and Content-Encoding. -/
def codingExchange (a : AcceptList Encoding) (available : List Encoding) : Headers → Headers → Res (Option Encoding) :=
  exchange s!!"accept-encoding" (AcceptEncoding.value a) AcceptEncoding.fromHeaders (fun b => (b.negotiate available).2)
    s!!"content-encoding" (fun e => .ok e.display) (readCoding s!!"content-encoding" Encoding.fromStr)

/-- An exchange about the transfer of a response: TE and Transfer-Encoding. -/
def transferExchange (a : AcceptList TEncoding) (available : List TEncoding) : Headers → Headers → Res (Option TEncoding) :=
  exchange s!!"te" (TE.value a) TE.fromHeaders (fun b => (b.negotiate available).2)
    s!!"transfer-encoding" (fun e => .ok e.display) (readCoding s!!"transfer-encoding" TEncoding.fromStr)

/-- An exchange about the media type of a response: Accept and Content-Type. -/
def mediaExchange (a : AcceptList Mime) (available : List Mime) : Headers → Headers → Res (Option Mime) :=
  exchange s!!"accept" (Accept.value a) Accept.fromHeaders (fun b => (b.negotiateMedia available).2)
    s!!"content-type" ContentType.value ContentType.fromHeaders

/-- The client ends up with `r`: it was asked for with the most weight of those available, or nothing asked for is available,
anything is accepted and `r` is the first. -/
def Gets {α : Type} (ps : List (Proposal α)) (wildcard : Bool) (available : List α) (r : α) : Prop :=
  (∃ i p, Best ps (· ∈ available) i p ∧ p.item = r) ∨
    (∀ p ∈ ps, p.item ∉ available) ∧ wildcard = true ∧ available.head? = some r

/-- The same for media types, where what is asked for covers what is available. -/
def GetsMedia (ps : List (Proposal Mime)) (wildcard : Bool) (available : List Mime) (r : Mime) : Prop :=
  (∃ i p, Best ps (fun pat => ∃ m ∈ available, m.subsetEq pat = true) i p ∧ FirstCovered available p.item r) ∨
    (∀ p ∈ ps, ¬ ∃ m ∈ available, m.subsetEq p.item = true) ∧ wildcard = true ∧ available.head? = some r

/-- The outcomes of an exchange: the client reads exactly what `gets` says, or the server answers 406 if there is no such thing. -/
def Outcome {α : Type} (x : Res (Option α)) (gets : α → Prop) : Prop :=
  (∀ r, x = .ok (some r) ↔ gets r) ∧ (x = .err 406 ↔ ¬ ∃ r, gets r) ∧ ((∃ r, x = .ok (some r)) ∨ x = .err 406)

/-- A weight that is at most one thousandth above the other; no weight is least. -/
def AtMostAThousandthMore (w v : Option Fl) : Prop :=
  w = none ∨ ∃ m n, w = some (.fin false m) ∧ v = some (.fin false n) ∧ m * 1000 ≤ n * 1000 + 2 ^ 149

/-- The client ends up with `r`: it is available, and of those asked for and available none has a weight more than a thousandth
above; or nothing asked for is available, anything is accepted and `r` is the first. -/
def GetsNearly {α : Type} (ps : List (Proposal α)) (wildcard : Bool) (available : List α) (r : α) : Prop :=
  (∃ p ∈ ps, p.item = r ∧ r ∈ available ∧ ∀ q ∈ ps, q.item ∈ available → AtMostAThousandthMore q.weight p.weight) ∨
    (∀ p ∈ ps, p.item ∉ available) ∧ wildcard = true ∧ available.head? = some r

end HT.Spec
