import Verif.Model.Auth
import Verif.Model.Content
import Verif.Model.Forwarded
import Verif.Model.Security
import Verif.Model.ServerTiming

/-!
Model of building typed headers by their methods: `push`, `set_wildcard`, `iter`, `iter_mut`, `insert` of the
list headers and the setters of `StrictTransportSecurity`, `Authorization`, `WwwAuthenticate`,
`ContentLength` and `Forwarded`.
-/

namespace HT

/-! ### Iterating over a list header -/

/-- `Iter`, `IntoIter` of every list header: a slice or vector iterator, given by the items left
(src/conditional/if_match.rs:163-199, and alike in the other files: `into_iter`, `next`, `size_hint` in
src/conditional/if_match.rs:136-163, 205-217, if_none_match.rs:142-223, vary.rs:143-224,
src/cache/clear_site_data/mod.rs:120-201, src/cache/cache_control/cache_control.rs:70-74, 108-189,
src/security/timing_allow_origin.rs:164-245, src/server/allow.rs:75-79, 110-162,
src/trace/server_timing/mod.rs:94-98, 133-214). -/
structure ListIter (α : Type) where
  left : List α

namespace ListIter
variable {α : Type}

/-- `next`, src/conditional/if_match.rs:172-174 and 191-193. -/
def next (it : ListIter α) : Option α × ListIter α :=
  match it.left with
  | [] => (none, ⟨[]⟩)
  | x :: xs => (some x, ⟨xs⟩)

/-- `size_hint`, src/conditional/if_match.rs:177-179 and 196-198. -/
def sizeHint (it : ListIter α) : Nat × Option Nat := (it.left.length, some it.left.length)

end ListIter

/-! ### Lists -/

/-- Calls on the entries of a list header: `push`, and overwriting the `i`-th item met in `iter_mut`. -/
inductive ListOp (α : Type) where
  | push (a : α)
  | edit (i : Nat) (a : α)

/-- `Vec::push`; `*xs.iter_mut().nth(i)? = a`. -/
def ListOp.step {α : Type} (xs : List α) : ListOp α → List α
  | .push a => xs ++ [a]
  | .edit i a => xs.set i a

/-- A sequence of calls. -/
def ListOp.run {α : Type} (xs : List α) : List (ListOp α) → List α
  | [] => xs
  | op :: ops => run (op.step xs) ops

/-- Calls on a list header with a wildcard flag. -/
inductive StarOp (α : Type) where
  | list (op : ListOp α)
  | setWildcard (b : Bool)

namespace StarList
variable {α : Type}

/-- `new`, src/conditional/if_match.rs:46-51, if_none_match.rs:52-57, vary.rs:46-51,
src/cache/clear_site_data/mod.rs:55-60, src/security/timing_allow_origin.rs:68-73. -/
def new : StarList α := ⟨[], false⟩

/-- `push`, src/conditional/if_match.rs:77-79, if_none_match.rs:83-85, vary.rs:88-91,
src/cache/clear_site_data/mod.rs:86-88, src/security/timing_allow_origin.rs:105-107; `iter_mut`,
src/conditional/if_match.rs:99-103, if_none_match.rs:105-109, vary.rs:101-105,
src/cache/clear_site_data/mod.rs:108-112, src/security/timing_allow_origin.rs:127-131; `set_wildcard`,
src/conditional/if_match.rs:87-89, if_none_match.rs:93-95, vary.rs:83-85,
src/cache/clear_site_data/mod.rs:96-98, src/security/timing_allow_origin.rs:115-117. -/
def step (l : StarList α) : StarOp α → StarList α
  | .list op => { l with entries := op.step l.entries }
  | .setWildcard b => { l with wildcard := b }

/-- A sequence of calls. -/
def run (l : StarList α) : List (StarOp α) → StarList α
  | [] => l
  | op :: ops => run (step l op) ops

/-- `iter`, src/conditional/if_match.rs:92-96, if_none_match.rs:98-102, vary.rs:94-98,
src/cache/clear_site_data/mod.rs:101-105, src/security/timing_allow_origin.rs:120-124. -/
def iter (l : StarList α) : ListIter α := ⟨l.entries⟩

end StarList

/-- `Vary::push` with a string, src/conditional/vary.rs:88-91: the conversion panics on non-ASCII. -/
def Vary.pushStr (l : StarList HeaderName) (s : Str) : Res (StarList HeaderName) :=
  (HeaderName.ofStr s).map fun n => l.step (.list (.push n))

/-- `CacheControl::{new, push, iter_mut}`, src/cache/cache_control/cache_control.rs:40-42, 65-67, 77-81. -/
def CacheControl.run (ops : List (ListOp CacheDirective)) : List CacheDirective := ListOp.run [] ops

/-- `ServerTiming::{new, push, iter_mut}`, src/trace/server_timing/mod.rs:69-71, 89-91, 101-105. -/
def ServerTiming.run (ops : List (ListOp Metric)) : List Metric := ListOp.run [] ops

/-- `Allow::{new, insert}`, src/server/allow.rs:45-49, 70-72: the methods in one visiting order. -/
def Allow.run : List Method → List Method → List Method
  | s, [] => s
  | s, m :: ms => Allow.run (Allow.insert m s) ms

/-- `Allow::contains`, src/server/allow.rs:82-84. -/
def Allow.contains (s : List Method) (m : Method) : Bool := s.contains m

/-! ### Weighted lists -/

/-- Calls on `AcceptEncoding`, `TE` or `Accept`. -/
inductive AcceptOp (α : Type) where
  | push (p : Proposal α)
  | setWildcard (b : Bool)
  | sort
  | negotiate (available : List α)

/-- One call; `neg` is the type's `negotiate`. -/
def AcceptList.call {α : Type} (neg : AcceptList α → List α → AcceptList α × Res α) (a : AcceptList α) :
    AcceptOp α → AcceptList α
  | .push p => a.push p
  | .setWildcard b => a.setWildcard b
  | .sort => a.sort
  | .negotiate av => (neg a av).1

/-- A sequence of calls. -/
def AcceptList.calls {α : Type} (neg : AcceptList α → List α → AcceptList α × Res α) (a : AcceptList α) :
    List (AcceptOp α) → AcceptList α
  | [] => a
  | op :: ops => calls neg (call neg a op) ops

/-- `iter`, `into_iter`, src/content/accept_encoding.rs:142-146, 188-206, src/transfer/te.rs:140-144, 186-204,
src/content/accept.rs:150-154, 195-213; their `next` and `size_hint`, src/content/accept_encoding.rs:224-231, 243-250,
src/transfer/te.rs:222-229, 241-248, src/content/accept.rs:231-238, 250-257, are those of the vector. -/
def AcceptList.iter {α : Type} (a : AcceptList α) : ListIter (Proposal α) := ⟨a.entries⟩

/-- Calls as above, and changes of the `i`-th proposal met in `iter_mut` (src/content/accept_encoding.rs:149-153, 210-216,
262-269, src/transfer/te.rs:147-151, 208-214, 260-267, src/content/accept.rs:157-161, 217-223, 269-276): of the coding or media
type only, through `DerefMut` (src/content/encoding_proposal.rs:87-91, src/transfer/encoding_proposal.rs:89-93,
src/content/media_type_proposal.rs:104-108), or of the whole. -/
inductive AcceptEdit (α : Type) where
  | call (op : AcceptOp α)
  | item (i : Nat) (x : α)
  | whole (i : Nat) (p : Proposal α)

/-- One call or change; `neg` is the type's `negotiate`. -/
def AcceptList.change {α : Type} (neg : AcceptList α → List α → AcceptList α × Res α) (a : AcceptList α) :
    AcceptEdit α → AcceptList α
  | .call op => a.call neg op
  | .item i x => { a with entries := a.entries.modify i fun p => { p with item := x } }
  | .whole i p => { a with entries := a.entries.set i p }

/-- A sequence of calls and changes. -/
def AcceptList.changes {α : Type} (neg : AcceptList α → List α → AcceptList α × Res α) (a : AcceptList α) :
    List (AcceptEdit α) → AcceptList α
  | [] => a
  | op :: ops => changes neg (change neg a op) ops

/-! ### Setters -/

/-- Setters of `StrictTransportSecurity`. -/
inductive HstsOp where
  | maxAge (d : Duration)
  | includeSubdomains (b : Bool)
  | preload (b : Bool)

/-- `set_max_age`, `set_include_subdomains`, `set_preload`,
src/security/strict_transport_security.rs:68-70, 48-50, 58-60. -/
def Hsts.step (p : Hsts) : HstsOp → Hsts
  | .maxAge d => { p with maxAge := d }
  | .includeSubdomains b => { p with includeSubdomains := b }
  | .preload b => { p with preload := b }

/-- `From<StrictTransportSecurity> for Duration`, src/security/strict_transport_security.rs:149-153. -/
def Hsts.toDuration (p : Hsts) : Duration := p.maxAge

/-- `From<Duration> for StrictTransportSecurity`, src/security/strict_transport_security.rs:155-159. -/
def Hsts.ofDuration (d : Duration) : Hsts := Hsts.new d

/-- Setters of `Authorization`. -/
inductive AuthOp where
  | scheme (s : Scheme)
  | credentials (c : Str)

/-- `set_scheme`, `set_credentials`, src/auth/authorization.rs:80-82, 90-92. -/
def Authorization.step (a : Authorization) : AuthOp → Authorization
  | .scheme s => { a with scheme := s }
  | .credentials c => { a with credentials := c }

/-- Setters of `WwwAuthenticate`. -/
inductive WwwOp where
  | scheme (s : Scheme)
  | realm (r : Str)

/-- `set_scheme`, `set_realm`, src/auth/www_authenticate.rs:102-104, 112-114. -/
def WwwAuthenticate.step (a : WwwAuthenticate) : WwwOp → WwwAuthenticate
  | .scheme s => { a with scheme := s }
  | .realm r => { a with realm := r }

/-- `ContentLength::set_len`, src/content/content_length.rs:60-62. -/
def ContentLength.setLen (_n : Nat) (len : Nat) : Nat := len

/-- Setters of `Forwarded`. -/
inductive FwdOp where
  | addFor (v : Str)
  | host (v : Str)
  | proto (v : Str)
  | by (v : Str)

/-- `add_for`, `set_host`, `set_proto`, `set_by`, src/proxies/forwarded.rs:321-353. -/
def Forwarded.step (f : Forwarded) : FwdOp → Forwarded
  | .addFor v => f.addFor v
  | .host v => f.setHost v
  | .proto v => f.setProto v
  | .by v => f.setBy v

/-- `Forwarded::into_owned`, src/proxies/forwarded.rs:302-313. -/
def Forwarded.intoOwned (f : Forwarded) : Forwarded :=
  { by' := f.by'.map id, forwardedFor := f.forwardedFor.map id, host := f.host.map id,
    proto := f.proto.map id }

end HT
