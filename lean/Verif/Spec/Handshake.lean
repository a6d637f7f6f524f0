import Verif.Model.Simple

/-! A client asks with `Expect` before it sends a body. Client and server run on their own and talk over two lines that keep
the order of what is sent. -/

namespace HT.Spec

/-- What goes to the server: the headers, parts of the body, and the end of the body. -/
inductive Sent where
  | head (h : Headers)
  | part (b : List Byte)
  | fin

/-- What a client is doing. -/
inductive Asking where
  | start
  | waiting
  | sending (rest : List (List Byte))
  | listening
  | done (status : Nat)

/-- What a server is doing. -/
inductive Serving where
  | idle
  | reading (got : List Byte)
  | finished (got : Option (List Byte))
  | crashed

/-- Both of them, and what is on the lines between them. -/
structure Talking where
  client : Asking
  server : Serving
  up : List Sent
  down : List Nat

/-- One exchange: the headers of the request, whether the client waits before the body, the parts of the body, the status with
which the server refuses the body without having seen it, and its answer once it has the body. -/
structure Talk where
  headers : Headers
  waits : Bool
  parts : List (List Byte)
  refusal : Option Nat
  answer : List Byte → Nat

/-- Refusals and answers are not the interim status. -/
structure Talk.Final (t : Talk) : Prop where
  refusal : t.refusal ≠ some 100
  answer : ∀ b, t.answer b ≠ 100

/-- What a server does about the headers: read the body, ask for it with 100 and read it, give a final status, or panic. -/
inductive Reaction where
  | read
  | ask
  | stop (status : Nat)
  | crash
  deriving DecidableEq

/-- A server that reads the expectation with the type: an error is the status of the answer. -/
def Talk.reaction (t : Talk) (h : Headers) : Reaction :=
  match Expect.fromHeaders h with
  | .ok none => .read
  | .ok (some ()) => match t.refusal with
    | some s => .stop s
    | none => .ask
  | .err s => .stop s
  | .panic => .crash

/-- Before anything is sent. -/
def Talk.opening : Talking := ⟨.start, .idle, [], []⟩

/-- One step of the client or the server. -/
inductive Hop (t : Talk) : Talking → Talking → Prop
  | ask {s u d} : t.waits = true → Hop t ⟨.start, s, u, d⟩ ⟨.waiting, s, u ++ [.head t.headers], d⟩
  | send {s u d} : t.waits = false → Hop t ⟨.start, s, u, d⟩ ⟨.sending t.parts, s, u ++ [.head t.headers], d⟩
  | goOn {s u d} : Hop t ⟨.waiting, s, u, 100 :: d⟩ ⟨.sending t.parts, s, u, d⟩
  | refused {s u x d} : x ≠ 100 → Hop t ⟨.waiting, s, u, x :: d⟩ ⟨.done x, s, u, d⟩
  | part {s u d p ps} : Hop t ⟨.sending (p :: ps), s, u, d⟩ ⟨.sending ps, s, u ++ [.part p], d⟩
  | fin {s u d} : Hop t ⟨.sending [], s, u, d⟩ ⟨.listening, s, u ++ [.fin], d⟩
  | passOver {s u d} : Hop t ⟨.listening, s, u, 100 :: d⟩ ⟨.listening, s, u, d⟩
  | hear {s u x d} : x ≠ 100 → Hop t ⟨.listening, s, u, x :: d⟩ ⟨.done x, s, u, d⟩
  | read {c h u d} : t.reaction h = .read → Hop t ⟨c, .idle, .head h :: u, d⟩ ⟨c, .reading [], u, d⟩
  | invite {c h u d} : t.reaction h = .ask → Hop t ⟨c, .idle, .head h :: u, d⟩ ⟨c, .reading [], u, d ++ [100]⟩
  | stop {c h u d x} : t.reaction h = .stop x → Hop t ⟨c, .idle, .head h :: u, d⟩ ⟨c, .finished none, u, d ++ [x]⟩
  | crash {c h u d} : t.reaction h = .crash → Hop t ⟨c, .idle, .head h :: u, d⟩ ⟨c, .crashed, u, d⟩
  | take {c g b u d} : Hop t ⟨c, .reading g, .part b :: u, d⟩ ⟨c, .reading (g ++ b), u, d⟩
  | answer {c g u d} : Hop t ⟨c, .reading g, .fin :: u, d⟩ ⟨c, .finished (some g), u, d ++ [t.answer g]⟩

/-- In `n` steps, in any order of the two. -/
inductive Hops (t : Talk) : Nat → Talking → Prop
  | zero : Hops t 0 Talk.opening
  | succ {n a b} : Hops t n a → Hop t a b → Hops t (n + 1) b

/-- The client has its answer. -/
def Answered (a : Talking) : Prop := ∃ s, a.client = .done s

/-- Whatever happens first, it can always go on until the client has its answer. -/
def NeverStuck (t : Talk) : Prop := ∀ n a, Hops t n a → Answered a ∨ ∃ b, Hop t a b

end HT.Spec
