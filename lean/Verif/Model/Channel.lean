import Verif.Core.Str

/-!
Trailers and upgrades: a message owns both ends of a one-place channel and hands each out once.

The channel is `async_channel::bounded(1)` of the dependency: a queue shared by all handles; it is closed as soon as no
sender handle or no receiver handle is left; closing keeps the queue. A step is one call or one poll, steps interleave
freely. Wakers are not modelled: a pending future may be polled again at any time.
-/

namespace HT

/-- Which of the three channels: request trailers (src/request.rs), response trailers and response upgrades
(src/response.rs). -/
inductive ChanKind where
  | reqTrailers
  | respTrailers
  | respUpgrade
  deriving DecidableEq, Repr

/-- The channel fields of a message: `trailers_sender`, `trailers_receiver`, `has_trailers` (src/request.rs:41-43,
src/response.rs:41-43), or `upgrade_sender`, `upgrade_receiver`, `has_upgrade` (src/response.rs:44-46). -/
structure Ends where
  sender : Bool
  receiver : Bool
  flag : Bool
  deriving DecidableEq, Repr

/-- One channel with everything holding an end of it. `msgs`: the message and its clones, `none` once dropped.
`senders`: handed out and unused `Sender`s. `sending`: values of running `send` futures. `receivers`: handed out
`Receiver`s. -/
structure Chan (V : Type) where
  msgs : List (Option Ends)
  senders : Nat
  sending : List V
  receivers : Nat
  queue : List V
  deriving DecidableEq, Repr

/-- Steps of the users of the channel. -/
inductive ChanAct (V : Type) where
  | takeSender (i : Nat)
  | takeReceiver (i : Nat)
  | startSend (v : V)
  | pollSend (j : Nat)
  | dropSend (j : Nat)
  | dropSender
  | pollRecv
  | dropReceiver
  | dropMsg (i : Nat)
  | clone (i : Nat)
  deriving DecidableEq, Repr

/-- Results of steps. `completed` and `cancelled` repeat the value the future was started with. -/
inductive ChanObs (V : Type) where
  | unit
  | panic
  | pending
  | completed (v : V)
  | cancelled (v : V)
  | ready (o : Option V)
  deriving DecidableEq, Repr

namespace Chan

variable {V : Type}

/-- A live message with the sender still inside. -/
def hasSender : Option Ends → Bool
  | some e => e.sender
  | none => false

/-- A live message with the receiver still inside. -/
def hasReceiver : Option Ends → Bool
  | some e => e.receiver
  | none => false

/-- All live sender handles of the channel. -/
def senderHandles (s : Chan V) : Nat := s.msgs.countP hasSender + s.senders + s.sending.length

/-- All live receiver handles of the channel. -/
def receiverHandles (s : Chan V) : Nat := s.msgs.countP hasReceiver + s.receivers

/-- A new message: src/request.rs:49-69, src/response.rs:55-82. -/
def init : Chan V := ⟨[some ⟨true, true, false⟩], 0, [], 0, []⟩

/-- `send_trailers`, src/request.rs:552-559, src/response.rs:487-494; `send_upgrade`, src/response.rs:512-519. The flag
is set before the panic. -/
def takeSender (s : Chan V) (i : Nat) : Option (ChanObs V × Chan V) :=
  match s.msgs[i]? with
  | some (some e) =>
    if e.sender then
      some (.unit, { s with
        msgs := s.msgs.set i (some { e with sender := false, flag := true })
        senders := s.senders + 1 })
    else some (.panic, { s with msgs := s.msgs.set i (some { e with flag := true }) })
  | _ => none

/-- `recv_trailers`, src/request.rs:562-568, src/response.rs:497-503; `recv_upgrade`, src/response.rs:523-530, which also
sets the flag. -/
def takeReceiver (k : ChanKind) (s : Chan V) (i : Nat) : Option (ChanObs V × Chan V) :=
  match s.msgs[i]? with
  | some (some e) =>
    let flag := e.flag || k == .respUpgrade
    if e.receiver then
      some (.unit, { s with
        msgs := s.msgs.set i (some { e with receiver := false, flag := flag })
        receivers := s.receivers + 1 })
    else some (.panic, { s with msgs := s.msgs.set i (some { e with flag := flag }) })
  | _ => none

/-- `Sender::send`: the call, src/trailers.rs:232-234, src/upgrade/sender.rs:23-25. -/
def startSend (s : Chan V) (v : V) : Option (ChanObs V × Chan V) :=
  if s.senders = 0 then none
  else some (.unit, { s with senders := s.senders - 1, sending := s.sending ++ [v] })

/-- Polling the `send` future (its result is ignored): fails on a closed channel, waits on a full one. -/
def pollSend (s : Chan V) (j : Nat) : Option (ChanObs V × Chan V) :=
  match s.sending[j]? with
  | none => none
  | some v =>
    if s.receiverHandles = 0 then some (.completed v, { s with sending := s.sending.eraseIdx j })
    else if s.queue.length < 1 then
      some (.completed v, { s with sending := s.sending.eraseIdx j, queue := s.queue ++ [v] })
    else some (.pending, s)

/-- Dropping a `send` future before it is done. -/
def dropSend (s : Chan V) (j : Nat) : Option (ChanObs V × Chan V) :=
  match s.sending[j]? with
  | none => none
  | some v => some (.cancelled v, { s with sending := s.sending.eraseIdx j })

/-- Dropping an unused `Sender`. -/
def dropSender (s : Chan V) : Option (ChanObs V × Chan V) :=
  if s.senders = 0 then none else some (.unit, { s with senders := s.senders - 1 })

/-- Polling a `Receiver`: `poll_next` of the channel, src/trailers.rs:255-261, src/upgrade/receiver.rs:24-30. -/
def pollRecv (s : Chan V) : Option (ChanObs V × Chan V) :=
  if s.receivers = 0 then none
  else
    match s.queue with
    | v :: q => some (.ready (some v), { s with queue := q })
    | [] => if s.senderHandles = 0 then some (.ready none, s) else some (.pending, s)

/-- Dropping a `Receiver`. -/
def dropReceiver (s : Chan V) : Option (ChanObs V × Chan V) :=
  if s.receivers = 0 then none else some (.unit, { s with receivers := s.receivers - 1 })

/-- Dropping a message with the ends still inside. -/
def dropMsg (s : Chan V) (i : Nat) : Option (ChanObs V × Chan V) :=
  match s.msgs[i]? with
  | some (some _) => some (.unit, { s with msgs := s.msgs.set i none })
  | _ => none

/-- `Clone`: src/request.rs:887-905 without the ends, src/response.rs:585-605 with a clone of each. -/
def clone (k : ChanKind) (s : Chan V) (i : Nat) : Option (ChanObs V × Chan V) :=
  match s.msgs[i]? with
  | some (some e) =>
    some (.unit, { s with
      msgs := s.msgs ++ [some (if k = .reqTrailers then ⟨false, false, false⟩ else { e with flag := false })] })
  | _ => none

/-- One step; `none` when there is nothing the step could be done with. -/
def step (k : ChanKind) (s : Chan V) : ChanAct V → Option (ChanObs V × Chan V)
  | .takeSender i => s.takeSender i
  | .takeReceiver i => s.takeReceiver k i
  | .startSend v => s.startSend v
  | .pollSend j => s.pollSend j
  | .dropSend j => s.dropSend j
  | .dropSender => s.dropSender
  | .pollRecv => s.pollRecv
  | .dropReceiver => s.dropReceiver
  | .dropMsg i => s.dropMsg i
  | .clone i => s.clone k i

end Chan

/-- The executions: state reached and trace of steps with their results. -/
inductive ChanRun {V : Type} (k : ChanKind) : Chan V → List (ChanAct V × ChanObs V) → Prop where
  | init : ChanRun k Chan.init []
  | step {s s' : Chan V} {tr : List (ChanAct V × ChanObs V)} {a : ChanAct V} {o : ChanObs V} :
      ChanRun k s tr → s.step k a = some (o, s') → ChanRun k s' (tr ++ [(a, o)])

end HT
