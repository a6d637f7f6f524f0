import Verif.Model.Whole
import Verif.Model.HeaderIter

/-!
Types that pass calls on to what they contain: messages read like their body (`src/request.rs`, `src/response.rs`),
`Trailers` (`src/trailers.rs`) and upgraded connections (`src/upgrade/connection.rs`).
-/

namespace HT

/-- `AsyncRead` and `AsyncBufRead for Request`, src/request.rs:907-928. -/
def ReqVal.readerI {Url σ κ : Type} {T : κ → Type} (I : ReaderI σ) : ReaderI (ReqVal Url (Body σ) T) where
  pollRead r n := let (p, b) := (Body.readerI I).pollRead r.msg.body n; (p, { r with msg := { r.msg with body := b } })
  fillBuf r := let (p, b) := (Body.readerI I).fillBuf r.msg.body; (p, { r with msg := { r.msg with body := b } })
  consume r k := { r with msg := { r.msg with body := (Body.readerI I).consume r.msg.body k } }

/-- `AsyncRead` and `AsyncBufRead for Response`, src/response.rs:607-628. -/
def RespVal.readerI {σ κ : Type} {T : κ → Type} (I : ReaderI σ) : ReaderI (RespVal (Body σ) T) where
  pollRead r n := let (p, b) := (Body.readerI I).pollRead r.msg.body n; (p, { r with msg := { r.msg with body := b } })
  fillBuf r := let (p, b) := (Body.readerI I).fillBuf r.msg.body; (p, { r with msg := { r.msg with body := b } })
  consume r k := { r with msg := { r.msg with body := (Body.readerI I).consume r.msg.body k } }

/-- `Request::len`, src/request.rs:502-504. -/
def ReqVal.len {Url σ κ : Type} {T : κ → Type} (r : ReqVal Url (Body σ) T) : Option Nat := r.msg.body.len

/-- `Request::is_empty`, src/request.rs:508-510. -/
def ReqVal.isEmpty {Url σ κ : Type} {T : κ → Type} (r : ReqVal Url (Body σ) T) : Option Bool := r.msg.body.isEmpty

/-- `Response::len`, src/response.rs:407-409. -/
def RespVal.len {σ κ : Type} {T : κ → Type} (r : RespVal (Body σ) T) : Option Nat := r.msg.body.len

/-- `Response::is_empty`, src/response.rs:413-415. -/
def RespVal.isEmpty {σ κ : Type} {T : κ → Type} (r : RespVal (Body σ) T) : Option Bool := r.msg.body.isEmpty

/-- The ways to look at the headers of something that has headers. -/
structure HeaderViews (μ : Type) where
  get : μ → Str → Res (Option HeaderValues)
  index : μ → Str → Res HeaderValues
  iter : μ → MapIter (HeaderName × HeaderValues)
  names : μ → MapIter HeaderName
  values : μ → Values
  iterMut : μ → (HeaderName → HeaderValues → HeaderValues) → μ

/-- `header`, `Index`, `iter` and the `IntoIterator`s, `header_names`, `header_values`, `iter_mut` of requests,
src/request.rs:411-413, 576-594, 931-1010. -/
def ReqVal.views (Url β : Type) {κ : Type} (T : κ → Type) : HeaderViews (ReqVal Url β T) where
  get r n := r.msg.headers.getStr n
  index r n := r.msg.headers.indexStr n
  iter r := r.msg.headers.iter
  names r := r.msg.headers.names
  values r := r.msg.headers.values
  iterMut r f := { r with msg := { r.msg with headers := r.msg.headers.iterMut f } }

/-- The same of responses, src/response.rs:95-97, 539-557, 631-679, 699-725. -/
def RespVal.views (β : Type) {κ : Type} (T : κ → Type) : HeaderViews (RespVal β T) where
  get r n := r.msg.headers.getStr n
  index r n := r.msg.headers.indexStr n
  iter r := r.msg.headers.iter
  names r := r.msg.headers.names
  values r := r.msg.headers.values
  iterMut r f := { r with msg := { r.msg with headers := r.msg.headers.iterMut f } }

/-! ### Trailers -/

/-- `Trailers`, src/trailers.rs:62-65. -/
structure Trailers where
  headers : Headers

namespace Trailers

/-- `Trailers::new`, src/trailers.rs:69-73. -/
def new : Trailers := ⟨Headers.new⟩

/-- `Trailers::insert`, src/trailers.rs:89-95. -/
def insert (t : Trailers) (n : Str) (a : HvArg) : Trailers × Res (Option HeaderValues) :=
  let r := t.headers.insertStr n a; (⟨r.1⟩, r.2)

/-- `Trailers::append`, src/trailers.rs:114-120. -/
def append (t : Trailers) (n : Str) (a : HvArg) : Trailers × Res Unit :=
  let r := t.headers.appendStr n a; (⟨r.1⟩, r.2)

/-- `Trailers::get`, src/trailers.rs:123-125. -/
def get (t : Trailers) (n : Str) : Res (Option HeaderValues) := t.headers.getStr n

/-- `Trailers::get_mut` and a change through the reference, src/trailers.rs:128-130. -/
def modify (t : Trailers) (n : Str) (f : HeaderValues → HeaderValues) : Trailers × Res Unit :=
  let r := t.headers.modifyStr n f; (⟨r.1⟩, r.2)

/-- `Trailers::remove`, src/trailers.rs:133-135. -/
def remove (t : Trailers) (n : Str) : Trailers × Res (Option HeaderValues) :=
  let r := t.headers.removeStr n; (⟨r.1⟩, r.2)

/-- `Trailers::iter`, src/trailers.rs:138-140. -/
def iter (t : Trailers) : MapIter (HeaderName × HeaderValues) := t.headers.iter

/-- `Trailers::names`, src/trailers.rs:149-151. -/
def names (t : Trailers) : MapIter HeaderName := t.headers.names

/-- `Trailers::values`, src/trailers.rs:154-156. -/
def values (t : Trailers) : Values := t.headers.values

/-- `Trailers::iter_mut`, src/trailers.rs:144-146. -/
def iterMut (t : Trailers) (f : HeaderName → HeaderValues → HeaderValues) : Trailers := ⟨t.headers.iterMut f⟩

/-- `Clone for Trailers`, src/trailers.rs:159-167. -/
def clone (t : Trailers) : Trailers := ⟨t.headers⟩

/-- `Index<&str> for Trailers`, src/trailers.rs:197-209. -/
def indexStr (t : Trailers) (n : Str) : Res HeaderValues := t.headers.indexStr n

/-- All ways to look at trailers; the others are those of the collection, through `Deref`, src/trailers.rs:169-175. -/
def views : HeaderViews Trailers := ⟨get, indexStr, iter, names, values, iterMut⟩

/-- The calls of a history, on trailers. -/
def step (t : Trailers) : HOp → Trailers
  | .insert n a => (t.insert n a).1
  | .append n a => (t.append n a).1
  | .remove n => (t.remove n).1
  | .extend n vs => (t.modify n fun hs => (HeaderValues.append hs vs).1).1
  | .setAt n i v => (t.modify n fun hs => hs.set i v).1
  | .drain n other => (t.modify n fun hs => (HeaderValues.append other hs).2).1

end Trailers

/-! ### Upgraded connections -/

/-- `AsyncRead + AsyncWrite`. `pollWrite` answers the number of bytes taken. -/
structure DuplexI (σ : Type) where
  pollRead : σ → Nat → IoPoll × σ
  pollWrite : σ → List Byte → (Option (Except Unit Nat)) × σ
  pollFlush : σ → (Option (Except Unit Unit)) × σ
  pollClose : σ → (Option (Except Unit Unit)) × σ

/-- `Connection`, src/upgrade/connection.rs:8-10: a boxed transport. -/
structure Connection (σ : Type) where
  inner : σ

/-- `Connection::new`, src/upgrade/connection.rs:21-26. -/
def Connection.new {σ : Type} (t : σ) : Connection σ := ⟨t⟩

/-- `AsyncRead` and `AsyncWrite for Connection`, src/upgrade/connection.rs:33-59. -/
def Connection.duplexI {σ : Type} (D : DuplexI σ) : DuplexI (Connection σ) where
  pollRead c n := let (p, t) := D.pollRead c.inner n; (p, ⟨t⟩)
  pollWrite c bs := let (p, t) := D.pollWrite c.inner bs; (p, ⟨t⟩)
  pollFlush c := let (p, t) := D.pollFlush c.inner; (p, ⟨t⟩)
  pollClose c := let (p, t) := D.pollClose c.inner; (p, ⟨t⟩)

end HT
