import Verif.Spec.Body

/-! Which polls a body makes of its reader, and when reading comes to an end. -/

namespace HT.Spec

variable {σ : Type}

/-- A reader that also keeps a record of the buffer sizes it was polled with. -/
def recorded (I : ReaderI σ) : ReaderI (σ × List Nat) where
  pollRead x n := ((I.pollRead x.1 n).1, ((I.pollRead x.1 n).2, x.2 ++ [n]))
  fillBuf x := ((I.fillBuf x.1).1, ((I.fillBuf x.1).2, x.2))
  consume x k := (I.consume x.1 k, x.2)

/-- Polls of a reader with the sizes `asked`, none of which was made when `l` bytes had been delivered, and none of which
asks for more than is then left of the `l` bytes. -/
def OnlyNeeded (I : ReaderI σ) (s : σ) (l : Nat) (asked : List Nat) : Prop :=
  ∀ before n after, asked = before ++ n :: after →
    (delivered (reads I s before).1).length < l ∧ n ≤ l - (delivered (reads I s before).1).length

/-- How many of the polls were ready, and did not fail. -/
def readyPolls : List IoPoll → Nat
  | [] => 0
  | .ok _ :: ps => readyPolls ps + 1
  | _ :: ps => readyPolls ps

end HT.Spec
