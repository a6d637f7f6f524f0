import Verif.Model.Whole

/-!
Specification vocabulary for C124: what of a request or response an observer of its log may learn.
-/

namespace HT.Spec

/-- The public part of a request: everything but the content and media type of the body and the attached state. -/
def ReqPublic {Url σ κ : Type} {T : κ → Type} (r r' : ReqVal Url (Body σ) T) : Prop :=
  r.method = r'.method ∧ r.url = r'.url ∧ r.msg.headers = r'.msg.headers ∧ r.version = r'.version ∧
    r.msg.body.length = r'.msg.body.length ∧ r.msg.body.bytesRead = r'.msg.body.bytesRead ∧
    r.localAddr = r'.localAddr ∧ r.peerAddr = r'.peerAddr ∧ r.trailers = r'.trailers

/-- The public part of a response. -/
def RespPublic {σ κ : Type} {T : κ → Type} (r r' : RespVal (Body σ) T) : Prop :=
  r.status = r'.status ∧ r.msg.headers = r'.msg.headers ∧ r.version = r'.version ∧
    r.msg.body.length = r'.msg.body.length ∧ r.msg.body.bytesRead = r'.msg.body.bytesRead ∧
    r.localAddr = r'.localAddr ∧ r.peerAddr = r'.peerAddr ∧ r.trailers = r'.trailers ∧ r.upgrade = r'.upgrade

/-- Printable ASCII characters that need no escape in quotes. -/
def Plain (s : Str) : Prop := ∀ c ∈ s, 32 ≤ c.toNat ∧ c.toNat < 127 ∧ c ≠ '"' ∧ c ≠ '\\'

instance (s : Str) : Decidable (Plain s) := by unfold Plain; infer_instance

/-- A text can be read in another as it is. -/
def ReadIn (s t : Str) : Prop := ∃ a b, t = a ++ s ++ b

/-- The value stands in the text, behind its name and before a comma or the end. -/
def Labelled (name value t : Str) : Prop := ∃ a b, t = a ++ s!!" " ++ name ++ s!!": " ++ value ++ b ∧ (s!!", " <+: b ∨ b = s!!" }")

/-- The letters and digits of a name, without regard to case. -/
def letters (s : Str) : Str := lower (s.filter fun c => c.isAlphanum)

end HT.Spec
