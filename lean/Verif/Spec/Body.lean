import Verif.Model.Body

/-!
What it means that a reader holds certain bytes, in terms of all its executions.
-/

namespace HT.Spec

variable {σ : Type}

/-- Bytes of one poll. -/
def bytesOf : IoPoll → List Byte
  | .ok bs => bs
  | _ => []

/-- Outcomes of successive `poll_read` calls with the given buffer sizes, and the state afterwards. -/
def reads (I : ReaderI σ) (s : σ) : List Nat → List IoPoll × σ
  | [] => ([], s)
  | n :: ns =>
    let r := I.pollRead s n
    let rs := reads I r.2 ns
    (r.1 :: rs.1, rs.2)

/-- All bytes delivered by a sequence of polls. -/
def delivered (ps : List IoPoll) : List Byte := ps.flatMap bytesOf

/-- The reader holds exactly the bytes `d`: whatever buffer sizes are used, no poll panics, what is delivered
is a prefix of `d`, a poll never returns more than the buffer takes, and a poll that returns nothing into
a non-empty buffer means that all of `d` has been delivered. Polls may be pending or fail at any time. -/
def Holds (I : ReaderI σ) (s : σ) (d : List Byte) : Prop :=
  ∀ ns, .panic ∉ (reads I s ns).1 ∧ delivered (reads I s ns).1 <+: d ∧
    ∀ n bs s', I.pollRead (reads I s ns).2 n = (.ok bs, s') →
      bs.length ≤ n ∧ (n ≠ 0 → bs = [] → delivered (reads I s ns).1 = d)

/-- The contract of `poll_read` alone: never more bytes than the buffer takes. -/
def Fits (I : ReaderI σ) : Prop := ∀ s n bs s', I.pollRead s n = (.ok bs, s') → bs.length ≤ n

/-- Calls on a buffered reader. -/
inductive ROp where
  | read (n : Nat)
  | fill
  | consume (k : Nat)

/-- One call. The second component of the state is the part of the last filled buffer not yet consumed.
Consuming more than that is not allowed. Result: outcome, bytes that count as delivered, new state. -/
def opStep (I : ReaderI σ) (x : σ × List Byte) : ROp → Option (IoPoll × List Byte × (σ × List Byte))
  | .read n => let r := I.pollRead x.1 n; some (r.1, bytesOf r.1, (r.2, []))
  | .fill => let r := I.fillBuf x.1; some (r.1, [], (r.2, bytesOf r.1))
  | .consume k =>
    if k ≤ x.2.length then some (.ok [], x.2.take k, (I.consume x.1 k, x.2.drop k)) else none

/-- A sequence of calls: outcomes, bytes delivered, state; `none` if a call was not allowed. -/
def runOps (I : ReaderI σ) (x : σ × List Byte) : List ROp → Option (List IoPoll × List Byte × (σ × List Byte))
  | [] => some ([], [], x)
  | o :: os =>
    match opStep I x o with
    | none => none
    | some (p, bs, y) =>
      match runOps I y os with
      | none => none
      | some (ps, cs, z) => some (p :: ps, bs ++ cs, z)

/-- The bytes that plain reads delivered, of a sequence of calls with the given outcomes. -/
def plainBytes : List ROp → List IoPoll → List Byte
  | .read _ :: os, p :: ps => bytesOf p ++ plainBytes os ps
  | _ :: os, _ :: ps => plainBytes os ps
  | _, _ => []

/-- The reader holds exactly the bytes `d` for any mixture of plain and buffered reads, where `cur` has been
shown by `fill_buf` and not yet consumed. -/
def HoldsFrom (I : ReaderI σ) (x : σ × List Byte) (d : List Byte) : Prop :=
  ∀ os ps out y, runOps I x os = some (ps, out, y) →
    .panic ∉ ps ∧ out ++ y.2 <+: d ∧
    (∀ n bs s', I.pollRead y.1 n = (.ok bs, s') → bs.length ≤ n ∧ (n ≠ 0 → bs = [] → out = d)) ∧
    (∀ s', I.fillBuf y.1 = (.ok [], s') → out = d)

/-- Same, from a state where no buffer is shown. -/
def HoldsBuf (I : ReaderI σ) (s : σ) (d : List Byte) : Prop := HoldsFrom I (s, []) d

/-- What is left of `d` for a body: the declared length less what was read. -/
def remaining (b : Body σ) (d : List Byte) : List Byte :=
  match b.length with
  | none => d
  | some l => d.take (l - b.bytesRead)

end HT.Spec
