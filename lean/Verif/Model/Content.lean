import Mathlib.Data.List.Sort
import Verif.Core.Float
import Verif.Model.Lists
import Verif.Model.Mime

/-!
Model of weighted proposals and codings: `src/utils/mod.rs`, `src/content/{encoding,encoding_proposal,
accept_encoding,content_encoding,media_type_proposal,accept}.rs`, `src/transfer/*.rs`.
-/

namespace HT

/-- `parse_weight`, src/utils/mod.rs:13-31. -/
def parseWeight (s : Str) : Res Fl :=
  match split '=' s with
  | q :: rest =>
    if q = s!!"q" then
      match rest with
      | t :: _ => (Res.ofOption 500 (Fl.parse f32Format t)).status 400
      | [] => .err 400
    else .err 400
  | [] => .err 400

/-- `EncodingProposal` (src/content/encoding_proposal.rs:11-19, src/transfer/encoding_proposal.rs:13-21)
and `MediaTypeProposal` (src/content/media_type_proposal.rs:13-21). -/
structure Proposal (α : Type) where
  item : α
  weight : Option Fl
  deriving DecidableEq, Repr

namespace Proposal

/-- The range check, src/content/encoding_proposal.rs:25-28, src/transfer/encoding_proposal.rs:27-30,
src/content/media_type_proposal.rs:27-30. -/
def inRange (w : Fl) : Bool := w.isSignPositive && w.le (Fl.one f32Format)

/-- `EncodingProposal::new`, src/content/encoding_proposal.rs:23-35, src/transfer/encoding_proposal.rs:25-37. -/
def new {α : Type} (item : α) (weight : Option Fl) : Res (Proposal α) :=
  match weight with
  | some w => if inRange w then .ok ⟨item, some w⟩ else .err 500
  | none => .ok ⟨item, none⟩

/-- `From<Encoding> for EncodingProposal`, src/content/encoding_proposal.rs:59-66,
src/transfer/encoding_proposal.rs:61-68; `From<Mime> for MediaTypeProposal`,
src/content/media_type_proposal.rs:70-77. -/
def ofItem {α : Type} (item : α) : Proposal α := ⟨item, none⟩

/-- `EncodingProposal::from_str`, src/content/encoding_proposal.rs:47-56,
src/transfer/encoding_proposal.rs:49-58, with the coding's own `from_str`. -/
def fromStr {α : Type} (coding : Str → Option α) (s : Str) : Res (Option (Proposal α)) :=
  match split ';' s with
  | [] => .panic
  | name :: rest =>
    match coding name with
    | none => .ok none
    | some c =>
      match rest with
      | [] => (new c none).map some
      | w :: _ => (parseWeight w).bind fun w => (new c (some w)).map some

/-- `MediaTypeProposal::new`, src/content/media_type_proposal.rs:25-43. -/
def newMedia (m : Mime) (weight : Option Fl) : Res (Proposal Mime) :=
  match weight with
  | some w => if inRange w then .ok ⟨m, some w⟩ else .err 500
  | none => .ok ⟨m, some (Fl.one f32Format)⟩

/-- `MediaTypeProposal::from_str`, src/content/media_type_proposal.rs:60-67; a weight that is not a number
keeps the default status of an error. -/
def mediaFromStr (s : Str) : Res (Proposal Mime) :=
  (Mime.parse s).bind fun m =>
    match m.removeParam s!!"q" with
    | (none, m) => newMedia m none
    | (some t, m) => (Res.ofOption 500 (Fl.parse f32Format t)).bind fun w => newMedia m (some w)

/-- `partial_cmp`, src/content/encoding_proposal.rs:100-109, src/transfer/encoding_proposal.rs:102-111,
src/content/media_type_proposal.rs:117-126. -/
def partialCmp {α : Type} (a b : Proposal α) : Option Ordering :=
  match a.weight, b.weight with
  | some l, some r => l.partialCmp r
  | some _, none => some .gt
  | none, some _ => some .lt
  | none, none => none

/-- `From<EncodingProposal> for HeaderValue`, src/content/encoding_proposal.rs:111-119,
src/transfer/encoding_proposal.rs:113-121, src/content/media_type_proposal.rs:128-136. -/
def display {α : Type} (text : α → Str) (p : Proposal α) : Str :=
  match p.weight with
  | some w => text p.item ++ s!!";q=" ++ w.fmt3 f32Format
  | none => text p.item

end Proposal

/-- The comparison in `sort_by_weight`, src/utils/mod.rs:37-40. -/
def sortCmp {α : Type} (a b : Nat × Proposal α) : Ordering :=
  match b.2.partialCmp a.2 with
  | none => compare b.1 a.1
  | some .eq => compare b.1 a.1
  | some o => o

/-- `sort_by_weight`, src/utils/mod.rs:35-42. `sort_unstable_by` is modelled by an insertion sort;
`C36_unique` shows that for this comparison every sorting algorithm gives the same list. -/
def sortByWeight {α : Type} (ps : List (Proposal α)) : List (Proposal α) :=
  (List.insertionSort (fun a b => sortCmp a b ≠ .gt) (ps.zipIdx.map fun (p, i) => (i, p))).map (·.2)

/-- `AcceptEncoding`, `TE`, `Accept` (src/content/accept_encoding.rs:42-45, src/transfer/te.rs:40-43,
src/content/accept.rs:51-54). -/
structure AcceptList (α : Type) where
  wildcard : Bool
  entries : List (Proposal α)
  deriving DecidableEq, Repr

namespace AcceptList

/-- `new`, src/content/accept_encoding.rs:49-54, src/transfer/te.rs:47-52, src/content/accept.rs:58-63. -/
def new {α : Type} : AcceptList α := ⟨false, []⟩

/-- `push`, src/content/accept_encoding.rs:90-92, src/transfer/te.rs:88-90, src/content/accept.rs:98-100. -/
def push {α : Type} (a : AcceptList α) (p : Proposal α) : AcceptList α := { a with entries := a.entries ++ [p] }

/-- `set_wildcard`, src/content/accept_encoding.rs:100-102, src/transfer/te.rs:98-100, src/content/accept.rs:108-110. -/
def setWildcard {α : Type} (a : AcceptList α) (w : Bool) : AcceptList α := { a with wildcard := w }

/-- `sort`, src/content/accept_encoding.rs:109-111, src/transfer/te.rs:107-109,
src/content/accept.rs:117-119. -/
def sort {α : Type} (a : AcceptList α) : AcceptList α := { a with entries := sortByWeight a.entries }

/-- The loop of `from_headers` over the parts, src/content/accept_encoding.rs:66-84, src/transfer/te.rs:64-82,
src/content/accept.rs:75-92 (where every part gives an entry). -/
def loop {α : Type} (parse : Str → Res (Option (Proposal α))) : List Str → AcceptList α → Res (AcceptList α)
  | [], acc => .ok acc
  | part :: parts, acc =>
    let part := trim part
    if part = [] then loop parse parts acc
    else if part = s!!"*" then loop parse parts { acc with wildcard := true }
    else (parse part).bind fun e => match e with
      | some p => loop parse parts { acc with entries := acc.entries ++ [p] }
      | none => loop parse parts acc

/-- `from_headers`, src/content/accept_encoding.rs:57-87, src/transfer/te.rs:55-85,
src/content/accept.rs:66-95. -/
def fromHeaders {α : Type} (name : HeaderName) (parse : Str → Res (Option (Proposal α))) (h : Headers) :
    Res (Option (AcceptList α)) :=
  match h.get name with
  | none => .ok none
  | some vs => (loop parse (trimmedParts vs) new).map some

/-- `header_value`, src/content/accept_encoding.rs:161-180, src/transfer/te.rs:159-178,
src/content/accept.rs:168-187. -/
def value {α : Type} (text : α → Str) (a : AcceptList α) : Res HeaderValue :=
  .ok (writeStar s!!"*" (writeLoop [] true (a.entries.map (Proposal.display text))) a.wildcard)

/-- `negotiate`, src/content/accept_encoding.rs:118-139, src/transfer/te.rs:116-137: the receiver is left
sorted. -/
def negotiate {α : Type} [DecidableEq α] (a : AcceptList α) (available : List α) : AcceptList α × Res α :=
  let a := a.sort
  (a, match a.entries.find? fun p => available.contains p.item with
    | some p => .ok p.item
    | none =>
      match a.wildcard, available with
      | true, e :: _ => .ok e
      | _, _ => .err 406)

/-- `Accept::negotiate`, src/content/accept.rs:126-147. -/
def negotiateMedia (a : AcceptList Mime) (available : List Mime) : AcceptList Mime × Res Mime :=
  let a := a.sort
  (a, match a.entries.findSome? fun p => available.find? fun m => m.subsetEq p.item with
    | some m => .ok m
    | none =>
      match a.wildcard, available with
      | true, m :: _ => .ok m
      | _, _ => .err 406)

end AcceptList

/-- `content::Encoding`, src/content/encoding.rs:7-18. -/
inductive Encoding where
  | gzip | deflate | brotli | zstd | identity
  deriving DecidableEq, Repr

namespace Encoding

/-- `Encoding::from_str`, src/content/encoding.rs:22-38. -/
def fromStr (s : Str) : Option Encoding :=
  let s := trim s
  if s = [] then none
  else if s = s!!"gzip" then some gzip
  else if s = s!!"deflate" then some deflate
  else if s = s!!"br" then some brotli
  else if s = s!!"zstd" then some zstd
  else if s = s!!"identity" then some identity
  else none

/-- `Display`, src/content/encoding.rs:41-51. -/
def display : Encoding → Str
  | gzip => s!!"gzip"
  | deflate => s!!"deflate"
  | brotli => s!!"br"
  | zstd => s!!"zstd"
  | identity => s!!"identity"

end Encoding

/-- `transfer::Encoding`, src/transfer/encoding.rs:9-22. -/
inductive TEncoding where
  | chunked | gzip | deflate | brotli | zstd | identity
  deriving DecidableEq, Repr

namespace TEncoding

/-- `Encoding::from_str`, src/transfer/encoding.rs:26-43. -/
def fromStr (s : Str) : Option TEncoding :=
  let s := trim s
  if s = [] then none
  else if s = s!!"chunked" then some chunked
  else if s = s!!"gzip" then some gzip
  else if s = s!!"deflate" then some deflate
  else if s = s!!"br" then some brotli
  else if s = s!!"zstd" then some zstd
  else if s = s!!"identity" then some identity
  else none

/-- `Display`, src/transfer/encoding.rs:46-57. -/
def display : TEncoding → Str
  | gzip => s!!"gzip"
  | deflate => s!!"deflate"
  | brotli => s!!"br"
  | zstd => s!!"zstd"
  | identity => s!!"identity"
  | chunked => s!!"chunked"

end TEncoding

/-- The loop of `from_headers`: the last recognised value. -/
def codingLoop {α : Type} (coding : Str → Option α) : List HeaderValue → Option α → Option α
  | [], inner => inner
  | v :: vs, inner => match coding v with
    | some e => codingLoop coding vs (some e)
    | none => codingLoop coding vs inner

/-- `ContentEncoding::from_headers`, src/content/content_encoding.rs:46-62;
`TransferEncoding::from_headers`, src/transfer/transfer_encoding.rs:43-59. -/
def readCoding {α : Type} (name : HeaderName) (coding : Str → Option α) (h : Headers) : Res (Option α) :=
  match h.get name with
  | none => .ok none
  | some vs => (Res.unwrap (codingLoop coding (HeaderValues.iter vs) none)).map some

namespace AcceptEncoding

/-- `ACCEPT_ENCODING`, src/headers/constants.rs:66. -/
def name : HeaderName := s!!"accept-encoding"
/-- Entries of `AcceptEncoding`. -/
def parse (s : Str) : Res (Option (Proposal Encoding)) := Proposal.fromStr Encoding.fromStr s
/-- `AcceptEncoding::from_headers`, src/content/accept_encoding.rs:57-87. -/
def fromHeaders (h : Headers) : Res (Option (AcceptList Encoding)) := AcceptList.fromHeaders name parse h
/-- `header_value`, src/content/accept_encoding.rs:161-180. -/
def value (a : AcceptList Encoding) : Res HeaderValue := AcceptList.value Encoding.display a

end AcceptEncoding

namespace TE

/-- `headers::TE`, src/headers/constants.rs:161. -/
def name : HeaderName := s!!"te"
/-- Entries of `TE`. -/
def parse (s : Str) : Res (Option (Proposal TEncoding)) := Proposal.fromStr TEncoding.fromStr s
/-- `TE::from_headers`, src/transfer/te.rs:55-85. -/
def fromHeaders (h : Headers) : Res (Option (AcceptList TEncoding)) := AcceptList.fromHeaders name parse h
/-- `header_value`, src/transfer/te.rs:159-178. -/
def value (a : AcceptList TEncoding) : Res HeaderValue := AcceptList.value TEncoding.display a

end TE

namespace Accept

/-- `ACCEPT`, src/headers/constants.rs:62. -/
def name : HeaderName := s!!"accept"
/-- Entries of `Accept`. -/
def parse (s : Str) : Res (Option (Proposal Mime)) := (Proposal.mediaFromStr s).map some
/-- `Accept::from_headers`, src/content/accept.rs:66-95. -/
def fromHeaders (h : Headers) : Res (Option (AcceptList Mime)) := AcceptList.fromHeaders name parse h
/-- `header_value`, src/content/accept.rs:168-187. -/
def value (a : AcceptList Mime) : Res HeaderValue := AcceptList.value Mime.display a

end Accept

/-- `CONTENT_ENCODING`, src/headers/constants.rs:4. `ContentEncoding` and `TransferEncoding` are their coding: `new`, `encoding`,
`header_value`, `Deref`, `DerefMut`, `==` and the conversions (src/content/content_encoding.rs:41-43, 65-130,
src/transfer/transfer_encoding.rs:38-40, 62-127) are the identity, or drop the weight of a proposal. -/
def ContentEncoding.name : HeaderName := s!!"content-encoding"
/-- `TRANSFER_ENCODING`, src/headers/constants.rs:25. -/
def TransferEncoding.name : HeaderName := s!!"transfer-encoding"

end HT
