import Verif.Model.Clock
import Verif.Model.Content

/-!
Comparison of times, waiting times, ages and proposals: derived (`PartialEq`, `PartialOrd`, `Ord`) or written by hand.
-/

namespace HT

/-- `Ord for SystemTime`, std; what `Expires` (src/cache/expires.rs:36-39), `LastModified`
(src/conditional/last_modified.rs:37-40), `IfModifiedSince` (if_modified_since.rs:38-41) and `IfUnmodifiedSince`
(if_unmodified_since.rs:38-41) derive. -/
def SysTime.cmp (a b : SysTime) : Ordering := (compare a.secs b.secs).then (compare a.nanos b.nanos)

/-- `Ord for Duration`, std; what `Age` derives, src/cache/age.rs:32-35. -/
def Duration.cmp (a b : Duration) : Ordering := (compare a.secs b.secs).then (compare a.nanos b.nanos)

/-- `Ord for RetryAfter`, derived, src/other/retry_after.rs:35-38, 120-124: first by variant, in the order declared. -/
def RetryAfter.cmp : RetryAfter → RetryAfter → Ordering
  | .dur a, .dur b => a.cmp b
  | .dur _, .at _ => .lt
  | .at _, .dur _ => .gt
  | .at a, .at b => a.cmp b

/-- `f32 == f32`. -/
def Fl.feq (a b : Fl) : Bool := a.partialCmp b == some .eq

/-- `Option<f32> == Option<f32>`. -/
def Fl.optEq : Option Fl → Option Fl → Bool
  | none, none => true
  | some a, some b => a.feq b
  | _, _ => false

namespace Proposal

/-- `PartialEq` of proposals, derived, src/content/encoding_proposal.rs:10-19, src/content/media_type_proposal.rs:12-21,
src/transfer/encoding_proposal.rs:10-19. -/
def eq {α : Type} [DecidableEq α] (a b : Proposal α) : Bool := a.item = b.item ∧ Fl.optEq a.weight b.weight

/-- `PartialEq<Encoding> for EncodingProposal`, src/content/encoding_proposal.rs:68-78,
src/transfer/encoding_proposal.rs:70-80; `PartialEq<Mime> for MediaTypeProposal`, src/content/media_type_proposal.rs:85-95. -/
def eqItem {α : Type} [DecidableEq α] (a : Proposal α) (b : α) : Bool := a.item = b

end Proposal

end HT
