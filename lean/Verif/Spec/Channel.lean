import Verif.Model.Channel

/-! Specification of trailer and upgrade channels: what can be read off a trace of steps and results. -/

namespace HT.Spec

variable {V : Type}

abbrev Trace (V : Type) := List (ChanAct V × ChanObs V)

/-- Values for which `send` was called. -/
def sentOf (tr : Trace V) : List V :=
  tr.filterMap fun
    | (.startSend v, _) => some v
    | _ => none

/-- Values whose `send` future is done. -/
def completedOf (tr : Trace V) : List V :=
  tr.filterMap fun
    | (_, .completed v) => some v
    | _ => none

/-- Values whose `send` future was dropped before it was done. -/
def cancelledOf (tr : Trace V) : List V :=
  tr.filterMap fun
    | (_, .cancelled v) => some v
    | _ => none

/-- Values a receiver has yielded. -/
def receivedOf (tr : Trace V) : List V :=
  tr.filterMap fun
    | (_, .ready (some v)) => some v
    | _ => none

/-- Senders handed out, by the message and all its clones. -/
def sendersOut (tr : Trace V) : Nat :=
  tr.countP fun
    | (.takeSender _, .unit) => true
    | _ => false

/-- Receivers handed out. -/
def receiversOut (tr : Trace V) : Nat :=
  tr.countP fun
    | (.takeReceiver _, .unit) => true
    | _ => false

/-- Unused senders dropped. -/
def sendersDropped (tr : Trace V) : Nat :=
  tr.countP fun
    | (.dropSender, _) => true
    | _ => false

/-- Number of clones made. -/
def clonesMade (tr : Trace V) : Nat :=
  tr.countP fun
    | (.clone _, _) => true
    | _ => false

/-- The original message was dropped. -/
def OriginalDropped (tr : Trace V) : Prop := ∃ o, (ChanAct.dropMsg 0, o) ∈ tr

/-- Requests, or responses that are not cloned. -/
def CloneSafe (k : ChanKind) (tr : Trace V) : Prop := k = .reqTrailers ∨ clonesMade tr = 0

/-- No value can come any more: the sender was dropped unused, or inside the message, or its future was cancelled, or
the value has been received. -/
def Exhausted (tr : Trace V) : Prop :=
  sendersDropped tr ≠ 0 ∨ cancelledOf tr ≠ [] ∨ receivedOf tr ≠ [] ∨ (sendersOut tr = 0 ∧ OriginalDropped tr)

end HT.Spec
