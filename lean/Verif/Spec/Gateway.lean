import Verif.Model.Whole

/-! A gateway: a program that makes a new message from the one it got and sends it on. -/

namespace HT.Spec
variable {β : Type}

/-- The headers inserted one after the other as they are visited. -/
def copyHeaders (start : Headers) (visited : List (HeaderName × HeaderValues)) : Headers :=
  visited.foldl (fun acc e => (acc.insert e.1 (.values e.2)).1) start

/-- Their values appended one by one. -/
def copyValues (start : Headers) (visited : List (HeaderName × HeaderValues)) : Headers :=
  visited.foldl (fun acc e => e.2.foldl (fun acc v => (acc.append e.1 (.value v)).1) acc) start

/-- One gateway: headers first, or the body first, in whatever order the headers are visited. -/
inductive GateHop (I : BodyI β) : Msg β → Msg β → Prop
  | inserted {m : Msg β} {visited} : m.headers.Perm visited →
      GateHop I m (Msg.setBody I ⟨copyHeaders Headers.new visited, (Msg.new I).body⟩ (m.takeBody I).1)
  | appended {m : Msg β} {visited} : m.headers.Perm visited →
      GateHop I m (Msg.setBody I ⟨copyValues Headers.new visited, (Msg.new I).body⟩ (m.takeBody I).1)
  | bodyFirst {m : Msg β} {visited} : m.headers.Perm visited →
      GateHop I m { Msg.setBody I (Msg.new I) (m.takeBody I).1 with
        headers := copyHeaders (Msg.setBody I (Msg.new I) (m.takeBody I).1).headers visited }

/-- So many gateways. -/
inductive GateHops (I : BodyI β) : Nat → Msg β → Msg β → Prop
  | none {m} : GateHops I 0 m m
  | more {k m m' m''} : GateHop I m m' → GateHops I k m' m'' → GateHops I (k + 1) m m''

end HT.Spec
