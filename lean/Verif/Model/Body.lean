import Verif.Core.Utf8
import Verif.Core.Num
import Verif.Model.Mime

/-!
Bodies: src/body.rs.

A reader (`Box<dyn AsyncBufRead>`) is any state type with three functions; what it does at each poll, the
readiness schedule included, may depend on the state in any way. A poll returns the bytes written into
the buffer instead of their number. Bodies made from files are in Model/File.lean. Not modelled: wakers,
buffers' memory, `Debug`. `bytes_read` is unbounded (in Rust it would overflow after 2^64 bytes of a body without
length).
-/

namespace HT

/-- `Poll<io::Result<..>>` with the bytes read; `panic` is a panic inside the call. -/
inductive IoPoll where
  | pending
  | err
  | ok (bs : List Byte)
  | panic
  deriving Repr, DecidableEq

/-- `AsyncBufRead`: `poll_read` with a buffer of the given size, `poll_fill_buf` and `consume`. -/
structure ReaderI (σ : Type) where
  pollRead : σ → Nat → IoPoll × σ
  fillBuf : σ → IoPoll × σ
  consume : σ → Nat → σ

/-- `futures_lite::io::Cursor` over bytes: the bytes from the current position on. Never pending. -/
def cursorI : ReaderI (List Byte) where
  pollRead d n := (.ok (d.take n), d.drop n)
  fillBuf d := (.ok d, d)
  consume d k := d.drop k

/-- `futures_lite::io::empty`. -/
def emptyI : ReaderI Unit where
  pollRead _ _ := (.ok [], ())
  fillBuf _ := (.ok [], ())
  consume _ _ := ()

/-- `Body`, src/body.rs:56-62. -/
structure Body (σ : Type) where
  reader : σ
  mime : Option Mime
  length : Option Nat
  bytesRead : Nat
  deriving Repr, DecidableEq

namespace Body

variable {σ τ : Type}

/-- `Body::empty`, src/body.rs:79-86. -/
def empty : Body Unit := ⟨(), some Mime.BYTE_STREAM, some 0, 0⟩

/-- `Body::from_reader`, src/body.rs:107-117. -/
def fromReader (r : σ) (length : Option Nat) : Body σ := ⟨r, some Mime.BYTE_STREAM, length, 0⟩

/-- `Body::from_bytes`, src/body.rs:154-161, also `From<Vec<u8>>` and `From<&[u8]>`, 568-578. -/
def fromBytes (d : List Byte) : Body (List Byte) := ⟨d, some Mime.BYTE_STREAM, some d.length, 0⟩

/-- `Body::from_string`, src/body.rs:204-211, also `From<String>` and `From<&str>`, 556-566. -/
def fromString (s : Str) : Body (List Byte) :=
  ⟨utf8Encode s, some Mime.PLAIN, some (utf8Encode s).length, 0⟩

/-- `Body::from_json`, src/body.rs:251-260; `json` is the outcome of `serde_json::to_vec` (its error
becomes status 500). -/
def fromJson (json : Option (List Byte)) : Res (Body (List Byte)) :=
  (Res.ofOption 500 json).map fun d => ⟨d, some Mime.JSON, some d.length, 0⟩

/-- `Body::from_form`, src/body.rs:318-329; `form` is the outcome of `serde_urlencoded::to_string`. -/
def fromForm (form : Option Str) : Res (Body (List Byte)) :=
  (Res.ofOption 500 form).map fun s => ⟨utf8Encode s, some Mime.FORM, some (utf8Encode s).length, 0⟩

/-- `Body::into_reader`, src/body.rs:132-134. -/
def intoReader (b : Body σ) : σ := b.reader

/-- `Body::len`, src/body.rs:467-469. -/
def len (b : Body σ) : Option Nat := b.length

/-- `Body::is_empty`, src/body.rs:472-474. -/
def isEmpty (b : Body σ) : Option Bool := b.length.map (· == 0)

/-- `Body::set_mime`, src/body.rs:495-497. -/
def setMime (b : Body σ) (m : Option Mime) : Body σ := { b with mime := m }

/-- Lines 598-600 of `poll_read`: count what was read. -/
def counted (b : Body σ) : IoPoll × σ → IoPoll × Body σ
  | (.ok bs, r) => (.ok bs, { b with reader := r, bytesRead := b.bytesRead + bs.length })
  | (p, r) => (p, { b with reader := r })

/-- `AsyncRead for Body::poll_read`, src/body.rs:581-601. The subtraction panics on underflow. -/
def pollRead (I : ReaderI σ) (b : Body σ) (n : Nat) : IoPoll × Body σ :=
  match b.length with
  | none => b.counted (I.pollRead b.reader n)
  | some length =>
    if length = b.bytesRead then (.ok [], b)
    else if length < b.bytesRead then (.panic, b)
    else b.counted (I.pollRead b.reader (min (length - b.bytesRead) n))

/-- `Body` as a reader: `poll_read` above; `poll_fill_buf` and `consume`, src/body.rs:604-613, go straight
to the inner reader. -/
def readerI (I : ReaderI σ) : ReaderI (Body σ) where
  pollRead := pollRead I
  fillBuf b := let (p, r) := I.fillBuf b.reader; (p, { b with reader := r })
  consume b k := { b with reader := I.consume b.reader k }

end Body

/-- `futures_lite::io::Chain`: first reader, second reader, `done_first`. From the dependency (futures-lite
1.x, src/io.rs): at the end of the first reader the poll goes on to the second. -/
def chainI {σ τ : Type} (I : ReaderI σ) (J : ReaderI τ) : ReaderI (σ × τ × Bool) where
  pollRead x n :=
    let (a, b, done) := x
    let second := fun a => let (p, b) := J.pollRead b n; (p, (a, b, true))
    if done then second a
    else
      match I.pollRead a n with
      | (.ok bs, a) => if bs = [] ∧ n ≠ 0 then second a else (.ok bs, (a, b, false))
      | (p, a) => (p, (a, b, false))
  fillBuf x :=
    let (a, b, done) := x
    let second := fun a => let (p, b) := J.fillBuf b; (p, (a, b, true))
    if done then second a
    else
      match I.fillBuf a with
      | (.ok bs, a) => if bs = [] then second a else (.ok bs, (a, b, false))
      | (p, a) => (p, (a, b, false))
  consume x k :=
    let (a, b, done) := x
    if done then (a, J.consume b k, true) else (I.consume a k, b, false)

namespace Body

variable {σ τ : Type}

/-- `Body::chain`, src/body.rs:520-536. The subtractions panic on underflow. -/
def chain (a : Body σ) (b : Body τ) : Res (Body (Body σ × Body τ × Bool)) :=
  let mime := if a.mime = b.mime then a.mime else some Mime.BYTE_STREAM
  let length : Res (Option Nat) :=
    match a.length, b.length with
    | some l1, some l2 =>
      if l1 < a.bytesRead then .panic
      else if l2 < b.bytesRead then .panic
      else
        let s := (l1 - a.bytesRead) + (l2 - b.bytesRead)
        .ok (if s < u64Max1 then some s else none)
    | _, _ => .ok none
  length.map fun length => ⟨(a, b, false), mime, length, 0⟩

/-- The reader inside a chained body. -/
def chainReaderI (I : ReaderI σ) (J : ReaderI τ) : ReaderI (Body σ × Body τ × Bool) :=
  chainI (readerI I) (readerI J)

end Body

/-- `read_to_end` of futures-lite: poll with the given buffer sizes, one per poll (the library picks them,
none is zero), until a poll returns no bytes or an error. `none`: not finished after these polls. `Res.err`
stands for the `io::Error`. -/
def readToEnd {σ : Type} (I : ReaderI σ) (s : σ) : List Nat → List Byte → Option (Res (List Byte))
  | [], _ => none
  | n :: ns, acc =>
    match I.pollRead s n with
    | (.pending, s) => readToEnd I s ns acc
    | (.err, _) => some (.err 500)
    | (.panic, _) => some .panic
    | (.ok bs, s) => if bs = [] then some (.ok acc) else readToEnd I s ns (acc ++ bs)

namespace Body

variable {σ : Type}

/-- `Body::into_bytes`, src/body.rs:178-184. -/
def intoBytes (I : ReaderI σ) (b : Body σ) (sizes : List Nat) : Option (Res (List Byte)) :=
  (readToEnd (readerI I) b sizes []).map fun r => r.status 422

/-- One more than `isize::MAX`: the least capacity for which `String::with_capacity` panics (64-bit). -/
def capLimit : Nat := 2 ^ 63

/-- `Body::into_string`, src/body.rs:227-234: `String::with_capacity` panics for a length above
`isize::MAX`; `read_to_string` of futures-lite reads to the end, then checks UTF-8. `u64` to `usize` never
fails on a 64-bit machine. Running out of memory is not modelled. -/
def intoString (I : ReaderI σ) (b : Body σ) (sizes : List Nat) : Option (Res Str) :=
  if capLimit ≤ b.len.getD 0 then some .panic
  else (readToEnd (readerI I) b sizes []).map fun r =>
    (r.bind fun d => Res.ofOption 500 (utf8Decode d)).status 422

/-- `Body::into_json`, src/body.rs:283-287, with `serde_json::from_slice` as a parameter. A read error keeps
its status 500. -/
def intoJson {α : Type} (decode : List Byte → Option α) (I : ReaderI σ) (b : Body σ) (sizes : List Nat) :
    Option (Res α) :=
  (readToEnd (readerI I) b sizes []).map fun r => r.bind fun d => Res.ofOption 422 (decode d)

/-- `Body::into_form`, src/body.rs:357-360, with `serde_urlencoded::from_str` as a parameter. -/
def intoForm {α : Type} (decode : Str → Option α) (I : ReaderI σ) (b : Body σ) (sizes : List Nat) :
    Option (Res α) :=
  (intoString I b sizes).map fun r => r.bind fun s => Res.ofOption 422 (decode s)

end Body

end HT
