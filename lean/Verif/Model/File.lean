import Verif.Model.Body

/-!
Bodies from files, `src/body.rs`. A file is its bytes and the position of the handle; it does not change while it is
used. Each of `open`, `metadata`, `read` and `seek` may fail, and a read may return fewer bytes than asked for: both are
arguments. Paths are texts (a path that is not UTF-8 has no usable extension).
-/

namespace HT

/-- An open `async_std::fs::File`. -/
structure File where
  bytes : List Byte
  pos : Nat

/-- What the operating system does on the calls `from_file_with_path` makes: whether `metadata` and `seek` succeed, and
how many bytes `read` returns at most, `none` if it fails. -/
structure FileRun where
  metadataOk : Bool
  read : Option Nat
  seekOk : Bool

/-- `Mime::sniff`, src/mime/mod.rs:44-51; `infer` is the `infer` crate's answer. -/
def Mime.sniff (infer : List Byte → Option Str) (bs : List Byte) : Res Mime :=
  match infer bs with
  | some t => Mime.parse t
  | none => .err 500

/-- Overwrite the beginning of the 300 zeros. -/
def fillBuffer (bs : List Byte) : List Byte := bs ++ List.replicate (300 - bs.length) 0

/-- `peek_mime`, src/body.rs:618-627: the media type and the file afterwards; `none` is the `io::Error`. -/
def peekMime (infer : List Byte → Option Str) (f : File) (run : FileRun) : Option (Option Mime × File) :=
  match run.read with
  | none => none
  | some k =>
    let got := (f.bytes.drop f.pos).take (min k 300)
    let mime := match Mime.sniff infer (fillBuffer got) with
      | .ok m => some m
      | _ => none
    if run.seekOk then some (mime, { f with pos := 0 }) else none

/-- `Path::file_name`, std (Unix): the last component, unless it is `..`. -/
def fileName (path : Str) : Option Str :=
  match ((split '/' path).filter fun c => c ≠ [] ∧ c ≠ s!!".").getLast? with
  | some c => if c = s!!".." then none else some c
  | none => none

/-- `Path::extension`, std: what follows the last dot of the file name, unless the dot is at its beginning. -/
def extension (path : Str) : Option Str :=
  match fileName path with
  | none => none
  | some name =>
    match (split '.' name).reverse with
    | ext :: before :: rest => if join s!!"." (before :: rest).reverse = [] then none else some ext
    | _ => none

/-- `guess_ext`, src/body.rs:632-635. -/
def guessExt (path : Str) : Option Mime := (extension path).bind Mime.fromExtension

namespace Body

/-- `Body::from_file_with_path`, src/body.rs:433-452; `none` is the `io::Error`. The reader is a `BufReader` at the
position of the file, which hands out the bytes from there on. -/
def fromFileWithPath (infer : List Byte → Option Str) (f : File) (path : Str) (run : FileRun) :
    Option (Body (List Byte)) :=
  if run.metadataOk then
    match peekMime infer f run with
    | none => none
    | some (mime, g) =>
      some ⟨g.bytes.drop g.pos, some ((mime.or (guessExt path)).getD Mime.BYTE_STREAM), some f.bytes.length, 0⟩
  else none

/-- `Body::from_file`, src/body.rs:407-409. -/
def fromFile (infer : List Byte → Option Str) (f : File) (run : FileRun) : Option (Body (List Byte)) :=
  fromFileWithPath infer f [] run

/-- `Body::from_path`, src/body.rs:379-386; `opened` is the outcome of `File::open`. -/
def fromPath (infer : List Byte → Option Str) (opened : Option (List Byte)) (path : Str) (run : FileRun) :
    Option (Body (List Byte)) :=
  match opened with
  | none => none
  | some bytes => fromFileWithPath infer ⟨bytes, 0⟩ path run

end Body

end HT
