import Verif.Model.Whole
import Verif.Spec.Message
import Verif.Spec.Extensions

/-!
Specification of whole requests and responses: every part of a message is described by the calls that are about it
and by no others.
-/

namespace HT.Spec

variable {Url β : Type} {κ : Type} {T : κ → Type}

/-- The newest of the given values, `a` if there are none. -/
def newest {α : Type} (a : α) (l : List α) : α := l.getLast?.getD a

/-- A call about headers or body of a message. -/
inductive MsgEv (β : Type) where
  | header (o : HOp)
  | contentType (m : Mime)
  | body (b : β)

/-- The method a call sets. -/
def methodOf : ReqOp Url β T → Option Method
  | .setMethod m => some m
  | _ => none

/-- The change a call makes to the URL. -/
def urlOf : ReqOp Url β T → Option (Url → Url)
  | .urlMut f => some f
  | _ => none

/-- The version a call sets. -/
def versionOf : ReqOp Url β T → Option (Option Version)
  | .setVersion v => some v
  | _ => none

/-- The address of the peer a call sets. -/
def peerOf : ReqOp Url β T → Option (Option Str)
  | .setPeer a => some a
  | _ => none

/-- The local address a call sets. -/
def localOf : ReqOp Url β T → Option (Option Str)
  | .setLocal a => some a
  | _ => none

/-- The call on the extensions. -/
def extOf : ReqOp Url β T → Option (EOp T)
  | .ext o => some o
  | _ => none

/-- What a call does to headers and body; taking the body puts the empty one there. -/
def msgOf (I : BodyI β) : ReqOp Url β T → Option (MsgEv β)
  | .setContentType m => some (.contentType m)
  | .header o => some (.header o)
  | .body o => some (.body (stored I o))
  | _ => none

/-- The status a call sets. -/
def statusOfR : RespOp β T → Option StatusCode
  | .setStatus c => some c
  | _ => none

def versionOfR : RespOp β T → Option (Option Version)
  | .setVersion v => some v
  | _ => none

def peerOfR : RespOp β T → Option (Option Str)
  | .setPeer a => some a
  | _ => none

def localOfR : RespOp β T → Option (Option Str)
  | .setLocal a => some a
  | _ => none

def extOfR : RespOp β T → Option (EOp T)
  | .ext o => some o
  | _ => none

def msgOfR (I : BodyI β) : RespOp β T → Option (MsgEv β)
  | .setContentType m => some (.contentType m)
  | .header o => some (.header o)
  | .body o => some (.body (stored I o))
  | _ => none

/-- What one header call makes of the values `cur` of the name `n`. -/
def lookupStep (n : Str) (cur : Option (List Str)) : HOp → Option (List Str)
  | .insert k a => if sameName k n then (writeValues a).or cur else cur
  | .append k a => if sameName k n then ((writeValues a).map fun vs => cur.getD [] ++ vs).or cur else cur
  | .remove k => if sameName k n then none else cur
  | .extend k vs => if sameName k n then cur.map (· ++ vs) else cur
  | .setAt k i v => if sameName k n then cur.map (fun l => l.set i v) else cur
  | .drain k _ => if sameName k n then cur.map (fun _ => []) else cur

/-- What a call makes of the values of the name `n`: a body brings its media type along if the message has no
content type yet, and touches no other header. -/
def headerStep (I : BodyI β) (n : Str) (cur : Option (List Str)) : MsgEv β → Option (List Str)
  | .header o => lookupStep n cur o
  | .contentType m => if sameName s!!"content-type" n then some [m.display] else cur
  | .body b => if sameName s!!"content-type" n then cur.or ((I.mime b).map fun m => [m.display]) else cur

/-- The bodies put into the message. -/
def bodyOf : MsgEv β → Option β
  | .body b => some b
  | _ => none

/-- The message has exactly these headers and this body, seen through lookups by any name. -/
def MsgIs (I : BodyI β) (m : Msg β) (evs : List (MsgEv β)) : Prop :=
  m.body = newest I.empty (evs.filterMap bodyOf) ∧
    ∀ n, Ascii n → m.headers.getStr n = .ok (evs.foldl (headerStep I n) none)

/-- The name of a shorthand constructor. -/
def ctorName : ReqVal.Ctor → Str
  | .get => s!!"get"
  | .head => s!!"head"
  | .post => s!!"post"
  | .put => s!!"put"
  | .delete => s!!"delete"
  | .connect => s!!"connect"
  | .options => s!!"options"
  | .trace => s!!"trace"
  | .patch => s!!"patch"

/-- The strings agree up to ASCII case, and the second has no small letter. -/
def UpperOf (s t : Str) : Prop := sameName s t = true ∧ ∀ c ∈ t, ¬ ('a' ≤ c ∧ c ≤ 'z')

end HT.Spec
