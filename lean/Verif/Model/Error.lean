import Verif.Model.StatusCode

/-! Model of `src/error.rs`, `src/status.rs` and `src/macros.rs`. -/

namespace HT

/-- The types an error may hold, as far as the code looks at them: `std::any::type_name`, `Display`,
`Debug`, and the types `&'static str` and `String`. Types are told apart as by `TypeId`. -/
structure ErrTypes where
  Ty : Type
  dec : DecidableEq Ty
  Val : Ty → Type
  typeName : Ty → Str
  display : (t : Ty) → Val t → Str
  debug : (t : Ty) → Val t → Str
  str : Ty
  ofStr : Str → Val str
  string : Ty
  ofString : Str → Val string

instance (W : ErrTypes) : DecidableEq W.Ty := W.dec

/-- A value with its type. -/
abbrev ErrVal (W : ErrTypes) := Sigma W.Val

/-- `anyhow::Error` (crate anyhow): the value it was made from, or that value under layers of
`context`, outermost first. -/
structure Anyhow (W : ErrTypes) where
  outer : ErrVal W
  inner : List (ErrVal W)

namespace Anyhow
variable {W : ErrTypes}

/-- All layers, outermost first. -/
def layers (a : Anyhow W) : List (ErrVal W) := a.outer :: a.inner

/-- `anyhow::Error::msg` and `From<E: StdError>`. -/
def ofVal (v : ErrVal W) : Anyhow W := ⟨v, []⟩

/-- The first layer of a given type. -/
def find (t : W.Ty) : List (ErrVal W) → Option (W.Val t)
  | [] => none
  | x :: xs => if h : x.1 = t then some (h ▸ x.2) else find t xs

/-- Overwrite the first layer of a given type. -/
def put (t : W.Ty) (v : W.Val t) : List (ErrVal W) → List (ErrVal W)
  | [] => []
  | x :: xs => if x.1 = t then ⟨t, v⟩ :: xs else x :: put t v xs

/-- `anyhow::Error::downcast_ref`, also what `downcast` gives by value. -/
def downcastRef (t : W.Ty) (a : Anyhow W) : Option (W.Val t) := find t a.layers

/-- Writing through `anyhow::Error::downcast_mut`; nothing to write to when it gives `None`. -/
def downcastSet (t : W.Ty) (v : W.Val t) (a : Anyhow W) : Anyhow W :=
  match put t v a.layers with
  | x :: xs => ⟨x, xs⟩
  | [] => a

/-- `Display for anyhow::Error` shows the outermost layer. -/
def display (a : Anyhow W) : Str := W.display a.outer.1 a.outer.2

end Anyhow

/-- An argument `E: Into<anyhow::Error>`: an error of some type, or an `anyhow::Error` itself. -/
inductive ErrArg (W : ErrTypes) where
  | val (v : ErrVal W)
  | any (a : Anyhow W)

namespace ErrArg
variable {W : ErrTypes}

/-- `error.into()`; the identity on `anyhow::Error`. -/
def into : ErrArg W → Anyhow W
  | .val v => .ofVal v
  | .any a => a

/-- `std::any::type_name::<E>()`. -/
def typeName : ErrArg W → Str
  | .val v => W.typeName v.1
  | .any _ => s!!"anyhow::Error"

end ErrArg

/-- `Error`, src/error.rs:16-20. -/
structure HError (W : ErrTypes) where
  error : Anyhow W
  status : StatusCode
  typeName : Option Str

/-- Outcome with a full error: success, failure, panic. -/
inductive Out (α β : Type) where
  | ok (a : α)
  | err (e : β)
  | panic
  deriving DecidableEq

/-- An argument `S: TryInto<StatusCode>`: a status code itself, or a number. -/
inductive StatusArg where
  | code (c : StatusCode)
  | num (n : Nat)

/-- `status.try_into()`: identity (infallible) or `TryFrom<u16>`. -/
def StatusArg.tryInto : StatusArg → Option StatusCode
  | .code c => some c
  | .num n => StatusCode.tryFrom n

namespace HError
variable {W : ErrTypes}

/-- `Error::new`, src/error.rs:39-52 (`none` = panic). -/
def new (s : StatusArg) (e : ErrArg W) : Option (HError W) :=
  s.tryInto.map fun c => ⟨e.into, c, some e.typeName⟩

/-- `Error::from_str`, src/error.rs:55-68 (`none` = panic), with a message of any type. -/
def fromStr (s : StatusArg) (m : ErrVal W) : Option (HError W) :=
  s.tryInto.map fun c => ⟨.ofVal m, c, none⟩

/-- `Error::new_adhoc`, src/error.rs:70-75 and src/lib.rs:183-188. -/
def newAdhoc (m : ErrVal W) : Option (HError W) := fromStr (.code .internalServerError) m

/-- `Error::status`, src/error.rs:78-80, and `AsRef<StatusCode>`, src/error.rs:213-217. -/
def getStatus (e : HError W) : StatusCode := e.status

/-- `Error::set_status`, src/error.rs:83-91 (`none` = panic). -/
def setStatus (e : HError W) (s : StatusArg) : Option (HError W) :=
  s.tryInto.map fun c => { e with status := c }

/-- Writing through `AsMut<StatusCode>`, src/error.rs:219-223. -/
def writeStatus (e : HError W) (c : StatusCode) : HError W := { e with status := c }

/-- `Error::into_inner`, src/error.rs:128-130, and `AsRef<anyhow::Error>`, src/error.rs:243-247. -/
def intoInner (e : HError W) : Anyhow W := e.error

/-- `Error::downcast`, src/error.rs:133-142: `Ok` with the value, or `Err(self)`; `unwrap` panics. -/
def downcast (t : W.Ty) (e : HError W) : Out (W.Val t) (HError W) :=
  if (e.error.downcastRef t).isSome then
    match e.error.downcastRef t with
    | some v => .ok v
    | none => .panic
  else .err e

/-- `Error::downcast_ref`, src/error.rs:145-150. -/
def downcastRef (t : W.Ty) (e : HError W) : Option (W.Val t) := e.error.downcastRef t

/-- Writing through `Error::downcast_mut`, src/error.rs:153-158. -/
def downcastSet (t : W.Ty) (v : W.Val t) (e : HError W) : HError W :=
  { e with error := e.error.downcastSet t v }

/-- `Error::type_name`, src/error.rs:161-163. -/
def getTypeName (e : HError W) : Option Str := e.typeName

/-- `From<E> for Error`, src/error.rs:200-204. -/
def ofError (e : ErrArg W) : Option (HError W) := new (.code .internalServerError) e

/-- `Error::from_display`, src/error.rs:172-174, on the text of the argument's `Display`. -/
def fromDisplay (text : Str) : Option (HError W) := ofError (.any (.ofVal ⟨W.string, W.ofString text⟩))

/-- `Error::from_debug`, src/error.rs:183-185, on the text of the argument's `Debug`. -/
def fromDebug (text : Str) : Option (HError W) := ofError (.any (.ofVal ⟨W.string, W.ofString text⟩))

/-- `Display for Error`, src/error.rs:188-192. -/
def display (e : HError W) : Str := e.error.display

end HError

/-- What a program may do with an error it owns. -/
inductive ErrOp (W : ErrTypes) where
  | setStatus (s : StatusArg)
  | writeStatus (c : StatusCode)
  | write (t : W.Ty) (v : W.Val t)
  | take (t : W.Ty)

/-- The error is still there, was taken apart by a `downcast`, or the program panicked. -/
inductive ErrEnd (W : ErrTypes) where
  | alive (e : HError W)
  | taken (t : W.Ty) (v : W.Val t)
  | panic

/-- One call: `set_status`, a write through `as_mut`, a write through `downcast_mut`, `downcast` going on
with the error it gives back. -/
def ErrOp.step {W : ErrTypes} (e : HError W) : ErrOp W → ErrEnd W
  | .setStatus s => match e.setStatus s with
    | some e => .alive e
    | none => .panic
  | .writeStatus c => .alive (e.writeStatus c)
  | .write t v => .alive (e.downcastSet t v)
  | .take t => match e.downcast t with
    | .ok v => .taken t v
    | .err e => .alive e
    | .panic => .panic

/-- A sequence of calls. -/
def ErrOp.run {W : ErrTypes} (e : HError W) : List (ErrOp W) → ErrEnd W
  | [] => .alive e
  | op :: ops => match op.step e with
    | .alive e => run e ops
    | r => r

namespace StatusTrait
variable {T σ : Type} {W : ErrTypes}

/-- `Result<T, E>::status`, src/status.rs:37-48. -/
def resultStatus (r : Except (ErrVal W) T) (s : StatusArg) : Out T (HError W) :=
  match r with
  | .ok t => .ok t
  | .error e =>
    match s.tryInto with
    | none => .panic
    | some c => match HError.new (.code c) (.val e) with
      | none => .panic
      | some e => .err e

/-- `Result<T, E>::with_status`, src/status.rs:59-71. The closure may have effects on a state `σ`;
the state after the call is returned. -/
def resultWithStatus (r : Except (ErrVal W) T) (f : σ → StatusArg × σ) (st : σ) :
    Out T (HError W) × σ :=
  match r with
  | .ok t => (.ok t, st)
  | .error e =>
    let (s, st') := f st
    (match s.tryInto with
    | none => .panic
    | some c => match HError.new (.code c) (.val e) with
      | none => .panic
      | some e => .err e, st')

/-- `Result<T, Error>::status`, src/status.rs:83-92. -/
def errorStatus (r : Except (HError W) T) (s : StatusArg) : Out T (HError W) :=
  match r with
  | .ok t => .ok t
  | .error e => match e.setStatus s with
    | none => .panic
    | some e => .err e

/-- `Result<T, Error>::with_status`, src/status.rs:103-113. -/
def errorWithStatus (r : Except (HError W) T) (f : σ → StatusArg × σ) (st : σ) :
    Out T (HError W) × σ :=
  match r with
  | .ok t => (.ok t, st)
  | .error e =>
    let (s, st') := f st
    (match e.setStatus s with
    | none => .panic
    | some e => .err e, st')

/-- `Option<T>::status`, src/status.rs:125-136. -/
def optionStatus (o : Option T) (s : StatusArg) : Out T (HError W) :=
  match o with
  | some t => .ok t
  | none =>
    match s.tryInto with
    | none => .panic
    | some c => match HError.fromStr (.code c) ⟨W.str, W.ofStr s!!"NoneError"⟩ with
      | none => .panic
      | some e => .err e

/-- `Option<T>::with_status`, src/status.rs:147-159. -/
def optionWithStatus (o : Option T) (f : σ → StatusArg × σ) (st : σ) : Out T (HError W) × σ :=
  match o with
  | some t => (.ok t, st)
  | none =>
    let (s, st') := f st
    (match s.tryInto with
    | none => .panic
    | some c => match HError.fromStr (.code c) ⟨W.str, W.ofStr s!!"NoneError"⟩ with
      | none => .panic
      | some e => .err e, st')

end StatusTrait

/-! ### The macros of `src/macros.rs`

A function body is what runs after the macro; the message is an expression that is evaluated when the
macro builds its error, with effects on a state `σ`. -/
namespace Macro
variable {α β σ : Type} {W : ErrTypes}

/-- `private::Err(e)` for an error that may fail to be built. -/
def ret (e : Option (HError W)) : Out α (HError W) :=
  match e with
  | none => .panic
  | some e => .err e

/-- `format_err!`, src/macros.rs:73-87. -/
def formatErr (msg : σ → ErrVal W × σ) (st : σ) : Option (HError W) × σ :=
  let (m, st) := msg st
  (HError.newAdhoc m, st)

/-- `format_err_status!`, src/macros.rs:164-182. -/
def formatErrStatus (n : Nat) (msg : σ → ErrVal W × σ) (st : σ) : Option (HError W) × σ :=
  let (m, st) := msg st
  ((HError.newAdhoc m).bind fun e => e.setStatus (.num n), st)

/-- `bail!`, src/macros.rs:3-13. -/
def bail (msg : σ → ErrVal W × σ) (st : σ) : Out α (HError W) × σ :=
  let (e, st) := formatErr msg st
  (ret e, st)

/-- `bail_status!`, src/macros.rs:91-101. -/
def bailStatus (n : Nat) (msg : σ → ErrVal W × σ) (st : σ) : Out α (HError W) × σ :=
  let (e, st) := formatErrStatus n msg st
  (ret e, st)

/-- `ensure!` followed by the rest of the function, src/macros.rs:23-39. -/
def ensure (cond : σ → Bool × σ) (msg : σ → ErrVal W × σ) (rest : σ → Out α (HError W) × σ) (st : σ) :
    Out α (HError W) × σ :=
  let (c, st) := cond st
  if !c then bail msg st else rest st

/-- `ensure_eq!` followed by the rest of the function, src/macros.rs:49-65. -/
def ensureEq [DecidableEq β] (left right : σ → β × σ) (msg : σ → ErrVal W × σ)
    (rest : σ → Out α (HError W) × σ) (st : σ) : Out α (HError W) × σ :=
  let (l, st) := left st
  let (r, st) := right st
  if l ≠ r then bail msg st else rest st

/-- `ensure_status!` followed by the rest of the function, src/macros.rs:112-128. -/
def ensureStatus (cond : σ → Bool × σ) (n : Nat) (msg : σ → ErrVal W × σ)
    (rest : σ → Out α (HError W) × σ) (st : σ) : Out α (HError W) × σ :=
  let (c, st) := cond st
  if !c then bailStatus n msg st else rest st

/-- `ensure_eq_status!` followed by the rest of the function, src/macros.rs:139-155. -/
def ensureEqStatus [DecidableEq β] (left right : σ → β × σ) (n : Nat) (msg : σ → ErrVal W × σ)
    (rest : σ → Out α (HError W) × σ) (st : σ) : Out α (HError W) × σ :=
  let (l, st) := left st
  let (r, st) := right st
  if l ≠ r then bailStatus n msg st else rest st

end Macro
end HT
