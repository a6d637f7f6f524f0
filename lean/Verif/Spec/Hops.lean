import Verif.Model.Channel

/-! Trailers, or a connection that was upgraded, go from a server through gateways to a client. Each hop is a message of its own:
what sends takes the sender of the message, what receives takes its receiver. All hops are of the same kind. -/

namespace HT.Spec
variable {V : Type}

/-- What happens: the server calls `send`, polls the future, or drops the sender or the future; a gateway is polled, or its task
is dropped; the client polls its receiver. -/
inductive HopAct (V : Type) where
  | send (v : V)
  | poll
  | drop
  | gateway (i : Nat)
  | crash (i : Nat)
  | client

/-- Message `i` is sent by gateway `i - 1` (message 0 by the server) and received by gateway `i`. `runs` tells which gateways have
not ended, `got` what the client's polls gave: trailers or nothing. -/
structure TrailerHops (V : Type) where
  chan : Nat → Chan V
  runs : Nat → Bool
  got : List (Option V)

/-- A new message whose sender and receiver were both taken. -/
def handed (k : ChanKind) : Chan V :=
  match (Chan.init : Chan V).step k (.takeSender 0) with
  | some (_, c) => ((c.step k (.takeReceiver 0)).map Prod.snd).getD c
  | none => Chan.init

def TrailerHops.new (k : ChanKind) : TrailerHops V := ⟨fun _ => handed k, fun _ => true, []⟩

/-- One step on a channel; nothing happens if it cannot be done. -/
def onChan (k : ChanKind) (a : ChanAct V) (c : Chan V) : Chan V := ((c.step k a).map Prod.snd).getD c

def setChan (f : Nat → Chan V) (i : Nat) (g : Chan V → Chan V) : Nat → Chan V := fun j => if j = i then g (f j) else f j

/-- A gateway ends. -/
def TrailerHops.ends (k : ChanKind) (s : TrailerHops V) (i : Nat) (f : Nat → Chan V) : TrailerHops V :=
  { s with chan := setChan f i (onChan k .dropReceiver), runs := fun j => if j = i then false else s.runs j }

/-- One step, with `n` gateways: the client has the receiver of message `n`. A gateway that is polled receives, sends on what it
got, or drops its sender if nothing comes, and ends. -/
def TrailerHops.step (k : ChanKind) (n : Nat) (s : TrailerHops V) : HopAct V → TrailerHops V
  | .send v => { s with chan := setChan s.chan 0 (onChan k (.startSend v)) }
  | .poll => { s with chan := setChan s.chan 0 (onChan k (.pollSend 0)) }
  | .drop => { s with chan := setChan s.chan 0 fun c => onChan k (.dropSend 0) (onChan k .dropSender c) }
  | .gateway i =>
    if i < n ∧ s.runs i = true then
      match (s.chan i).step k .pollRecv with
      | some (.ready (some v), c) =>
        s.ends k i (setChan (setChan s.chan i fun _ => c) (i + 1) fun d => onChan k (.pollSend 0) (onChan k (.startSend v) d))
      | some (.ready none, c) => s.ends k i (setChan (setChan s.chan i fun _ => c) (i + 1) (onChan k .dropSender))
      | _ => s
    else s
  | .crash i => if i < n ∧ s.runs i = true then s.ends k i (setChan s.chan (i + 1) (onChan k .dropSender)) else s
  | .client =>
    match (s.chan n).step k .pollRecv with
    | some (.ready o, c) => { s with chan := setChan s.chan n fun _ => c, got := s.got ++ [o] }
    | _ => s

def TrailerHops.run (k : ChanKind) (n : Nat) (hs : List (HopAct V)) : TrailerHops V := hs.foldl (TrailerHops.step k n) (.new k)

/-- The trailers with which the server called `send`, unless it had dropped the sender. -/
def firstSent : List (HopAct V) → Option V
  | [] => none
  | .send v :: _ => some v
  | .drop :: _ => none
  | _ :: hs => firstSent hs

/-- The server has neither called `send` nor dropped its sender. -/
def Undecided (hs : List (HopAct V)) : Prop := (∀ v, .send v ∉ hs) ∧ .drop ∉ hs

/-- The gateways are polled in the order from `i` on, among other steps. -/
def InTurn (i n : Nat) (hs : List (HopAct V)) : Prop := ((List.range' i (n - i)).map HopAct.gateway).Sublist hs

end HT.Spec
