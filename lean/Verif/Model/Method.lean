import Verif.Core.Str

/-! Model of `src/method.rs`. -/

namespace HT

/-- `Method`, src/method.rs:14-337: the 39 registered methods. -/
inductive Method where
  | acl
  | baselineControl
  | bind
  | checkin
  | checkout
  | connect
  | copy
  | delete
  | get
  | head
  | label
  | link
  | lock
  | merge
  | mkActivity
  | mkCalendar
  | mkCol
  | mkRedirectRef
  | mkWorkspace
  | move
  | options
  | orderPatch
  | patch
  | post
  | pri
  | propFind
  | propPatch
  | put
  | rebind
  | report
  | search
  | trace
  | unbind
  | uncheckout
  | unlink
  | unlock
  | update
  | updateRedirectRef
  | versionControl
  deriving DecidableEq, Repr

namespace Method

/-- Every method (the variants of the enum). -/
def all : List Method :=
  [
    .acl, .baselineControl, .bind, .checkin, .checkout, .connect, .copy, .delete, .get, .head,
    .label, .link, .lock, .merge, .mkActivity, .mkCalendar, .mkCol, .mkRedirectRef, .mkWorkspace,
    .move, .options, .orderPatch, .patch, .post, .pri, .propFind, .propPatch, .put, .rebind,
    .report, .search, .trace, .unbind, .uncheckout, .unlink, .unlock, .update,
    .updateRedirectRef, .versionControl]

/-- `AsRef<str>` and `Display`, src/method.rs:404-408, 470-514. -/
def asStr : Method → Str
  | .acl => s!!"ACL"
  | .baselineControl => s!!"BASELINE-CONTROL"
  | .bind => s!!"BIND"
  | .checkin => s!!"CHECKIN"
  | .checkout => s!!"CHECKOUT"
  | .connect => s!!"CONNECT"
  | .copy => s!!"COPY"
  | .delete => s!!"DELETE"
  | .get => s!!"GET"
  | .head => s!!"HEAD"
  | .label => s!!"LABEL"
  | .link => s!!"LINK"
  | .lock => s!!"LOCK"
  | .merge => s!!"MERGE"
  | .mkActivity => s!!"MKACTIVITY"
  | .mkCalendar => s!!"MKCALENDAR"
  | .mkCol => s!!"MKCOL"
  | .mkRedirectRef => s!!"MKREDIRECTREF"
  | .mkWorkspace => s!!"MKWORKSPACE"
  | .move => s!!"MOVE"
  | .options => s!!"OPTIONS"
  | .orderPatch => s!!"ORDERPATCH"
  | .patch => s!!"PATCH"
  | .post => s!!"POST"
  | .pri => s!!"PRI"
  | .propFind => s!!"PROPFIND"
  | .propPatch => s!!"PROPPATCH"
  | .put => s!!"PUT"
  | .rebind => s!!"REBIND"
  | .report => s!!"REPORT"
  | .search => s!!"SEARCH"
  | .trace => s!!"TRACE"
  | .unbind => s!!"UNBIND"
  | .uncheckout => s!!"UNCHECKOUT"
  | .unlink => s!!"UNLINK"
  | .unlock => s!!"UNLOCK"
  | .update => s!!"UPDATE"
  | .updateRedirectRef => s!!"UPDATEREDIRECTREF"
  | .versionControl => s!!"VERSION-CONTROL"

/-- The arms of `FromStr::from_str`, src/method.rs:415-456, in source order. -/
def parseTable : List (Str × Method) := [
  (s!!"ACL", .acl),
  (s!!"BASELINE-CONTROL", .baselineControl),
  (s!!"BIND", .bind),
  (s!!"CHECKIN", .checkin),
  (s!!"CHECKOUT", .checkout),
  (s!!"CONNECT", .connect),
  (s!!"COPY", .copy),
  (s!!"DELETE", .delete),
  (s!!"GET", .get),
  (s!!"HEAD", .head),
  (s!!"LABEL", .label),
  (s!!"LINK", .link),
  (s!!"LOCK", .lock),
  (s!!"MERGE", .merge),
  (s!!"MKACTIVITY", .mkActivity),
  (s!!"MKCALENDAR", .mkCalendar),
  (s!!"MKCOL", .mkCol),
  (s!!"MKREDIRECTREF", .mkRedirectRef),
  (s!!"MKWORKSPACE", .mkWorkspace),
  (s!!"MOVE", .move),
  (s!!"OPTIONS", .options),
  (s!!"ORDERPATCH", .orderPatch),
  (s!!"PATCH", .patch),
  (s!!"POST", .post),
  (s!!"PRI", .pri),
  (s!!"PROPFIND", .propFind),
  (s!!"PROPPATCH", .propPatch),
  (s!!"PUT", .put),
  (s!!"REBIND", .rebind),
  (s!!"REPORT", .report),
  (s!!"SEARCH", .search),
  (s!!"TRACE", .trace),
  (s!!"UNBIND", .unbind),
  (s!!"UNCHECKOUT", .uncheckout),
  (s!!"UNLINK", .unlink),
  (s!!"UNLOCK", .unlock),
  (s!!"UPDATE", .update),
  (s!!"UPDATEREDIRECTREF", .updateRedirectRef),
  (s!!"VERSION-CONTROL", .versionControl)]

/-- First matching arm of a `match` on a string. -/
def firstArm (s : Str) : List (Str × Method) → Option Method
  | [] => none
  | (k, m) :: t => if s = k then some m else firstArm s t

/-- `FromStr` / `TryFrom<&str>`, src/method.rs:412-468: match on the ASCII-uppercased text;
`bail!` gives status 500. Also the serde visitor (src/method.rs:374-382) up to its error type. -/
def fromStr (s : Str) : Res Method :=
  match firstArm (upper s) parseTable with
  | some m => .ok m
  | none => .err 500

/-- `Method::is_safe`, src/method.rs:344-356. -/
def isSafe : Method → Bool
  | .get | .head | .options | .pri | .propFind | .report | .search | .trace => true
  | _ => false

end Method
end HT
