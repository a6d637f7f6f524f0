import Verif.Spec.Body
import Verif.Model.Simple

/-! Several messages one after another on the same connection. -/

namespace HT.Spec

variable {σ : Type}

/-- The headers of a message with the length of its body stated, if the body knows it. -/
def announce (h : Headers) (b : Body σ) : Res Headers :=
  match b.len with
  | none => .ok h
  | some n => applyHeader h s!!"content-length" (ContentLength.value n)

/-- The last of the polls says that there is no more: nothing was read into a non-empty buffer. -/
def Ended (ps : List IoPoll) (ns : List Nat) : Prop := ps.getLast? = some (.ok []) ∧ ns.getLast? ≠ some 0

/-- A receiver takes a message with the headers `h` from the connection `s`: it makes a body of the stated length from
the connection, reads it with buffers of the sizes `ns`, and takes the connection back. What it read (`ps`, giving
`d`) and the connection afterwards. -/
inductive Takes (I : ReaderI σ) : σ → Headers → List Nat → List Byte → σ → Prop where
  | mk {s h ns n} : ContentLength.fromHeaders h = .ok n →
      Ended (reads (Body.readerI I) (Body.fromReader s n) ns).1 ns →
      Takes I s h ns (delivered (reads (Body.readerI I) (Body.fromReader s n) ns).1)
        (reads (Body.readerI I) (Body.fromReader s n) ns).2.intoReader

/-- A receiver takes one message after another, reading each body to its end. -/
inductive TakesAll (I : ReaderI σ) : σ → List Headers → List (List Byte) → σ → Prop where
  | nil {s} : TakesAll I s [] [] s
  | cons {s s' s'' h hs ns d ds} : Takes I s h ns d s' → TakesAll I s' hs ds s'' → TakesAll I s (h :: hs) (d :: ds) s''

/-- The sender of a message with the headers `h` and the body `b` states the length and reads the body to its end: the
headers `h'` and the bytes `d` go out. -/
def Sends (J : ReaderI σ) (h : Headers) (b : Body σ) (h' : Headers) (d : List Byte) : Prop :=
  announce h b = .ok h' ∧ ∃ ns, Ended (reads (Body.readerI J) b ns).1 ns ∧ d = delivered (reads (Body.readerI J) b ns).1

/-- A body that has not been read yet and states a length which its reader has. -/
def Honest (J : ReaderI σ) (b : Body σ) : Prop :=
  ∃ l e, b.length = some l ∧ b.bytesRead = 0 ∧ Holds J b.reader e ∧ l ≤ e.length ∧ l < 2 ^ 64

end HT.Spec
