import Verif.Model.Content
import Verif.Model.Simple

/-! Layers of a server code the body of a message one after the other, and a client undoes the codings that the header
tells it. -/

namespace HT.Spec

/-- A header that names codings: its name, how a coding is written and read, and the coding that changes nothing. -/
structure CodingField (α : Type) where
  name : HeaderName
  text : α → Str
  read : Headers → Res (Option α)
  plain : α

def contentField : CodingField Encoding :=
  ⟨s!!"content-encoding", Encoding.display, readCoding ContentEncoding.name Encoding.fromStr, .identity⟩

def transferField : CodingField TEncoding :=
  ⟨s!!"transfer-encoding", TEncoding.display, readCoding TransferEncoding.name TEncoding.fromStr, .identity⟩

/-- What the codings do with a body: anything that can be undone; the plain coding does nothing. -/
structure Codec {α : Type} (F : CodingField α) (β : Type) where
  enc : α → β → β
  dec : α → β → β
  undo : ∀ e b, dec e (enc e b) = b
  plain : ∀ b, enc F.plain b = b

variable {α β : Type} {F : CodingField α}

/-- A layer codes the body and says so with `apply_header`. -/
def Codec.replace (K : Codec F β) (m : Res (Headers × β)) (e : α) : Res (Headers × β) :=
  m.bind fun (h, b) => (applyHeader h F.name (.ok (F.text e))).map fun h' => (h', K.enc e b)

/-- A layer codes the body and says so in a further line. -/
def Codec.add (K : Codec F β) (m : Res (Headers × β)) (e : α) : Res (Headers × β) :=
  m.bind fun (h, b) => match h.append F.name (.value (F.text e)) with
    | (h', .ok _) => .ok (h', K.enc e b)
    | _ => .panic

/-- A client that undoes the coding it reads. -/
def Codec.once (K : Codec F β) (m : Headers × β) : Res β :=
  (F.read m.1).map fun
    | none => m.2
    | some e => K.dec e m.2

/-- A client that undoes the coding it reads, takes the last line away, and goes on if there are lines left, but no more
than `n` times. -/
def Codec.all (K : Codec F β) : Nat → Headers × β → Res β
  | 0, m => .ok m.2
  | n + 1, m =>
    (F.read m.1).bind fun
      | none => .ok m.2
      | some e =>
        match m.1.get F.name with
        | some (v :: w :: vs) => K.all n ((m.1.insert F.name (.slice (v :: w :: vs).dropLast)).1, K.dec e m.2)
        | _ => .ok (K.dec e m.2)

/-- With whatever codings, the body arrives as it was. -/
def ArrivesAs (send : {β : Type} → Codec F β → Headers × β → Res (Headers × β))
    (receive : {β : Type} → Codec F β → Headers × β → Res β) : Prop :=
  ∀ (β : Type) (K : Codec F β) (h : Headers) (b : β), h.get F.name = none → (send K (h, b)).bind (receive K) = .ok b

end HT.Spec
