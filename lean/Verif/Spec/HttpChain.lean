import Verif.Spec.HttpBack

/-! Specification of messages that are converted to the crate `http` and back again and again. -/

namespace HT.Spec
variable {Uri Url β : Type}

/-- A response converted to the crate and back. -/
def Converted (I : BodyI β) (ok : Str → Bool) (r q : Hyper.Resp β) : Prop :=
  ∃ p, Hyper.ofResponse ok r = .ok p ∧ Hyper.toResponse I p = some (.ok q)

/-- The same `k` times. -/
def ConvertedTimes (I : BodyI β) (ok : Str → Bool) : Nat → Hyper.Resp β → Hyper.Resp β → Prop
  | 0, r, q => q = r
  | k + 1, r, q => ∃ x, ConvertedTimes I ok k r x ∧ Converted I ok x q

/-- A request converted to the crate and back. -/
def ReqConverted (I : BodyI β) (ok : Str → Bool) (display : Url → Option Uri) (parse : Uri → Option Url) (r q : Hyper.Req Url β) : Prop :=
  ∃ p, Hyper.ofRequest ok display r = .ok p ∧ Hyper.toRequest I parse p = some (.ok q)

/-- The same `k` times. -/
def ReqConvertedTimes (I : BodyI β) (ok : Str → Bool) (display : Url → Option Uri) (parse : Uri → Option Url) :
    Nat → Hyper.Req Url β → Hyper.Req Url β → Prop
  | 0, r, q => q = r
  | k + 1, r, q => ∃ x, ReqConvertedTimes I ok display parse k r x ∧ ReqConverted I ok display parse x q

/-- What a name has in the end: its first value, but the media type of the body twice for the content type. -/
def settled (mime : Option Mime) (h : Headers) (n : Str) : Option (List Str) :=
  match mime with
  | some m => if n = s!!"content-type" then some [m.display, m.display] else (h.get n).map (·.take 1)
  | none => (h.get n).map (·.take 1)

end HT.Spec
