import Verif.Core.Str

/-! Model of `src/version.rs`. -/

namespace HT

/-- `Version`, src/version.rs:4-19. -/
inductive Version where
  | http0_9
  | http1_0
  | http1_1
  | http2_0
  | http3_0
  deriving DecidableEq, Repr

namespace Version

/-- Declaration position, which the derived `Ord` (src/version.rs:2) compares. -/
def ord : Version → Nat
  | .http0_9 => 0
  | .http1_0 => 1
  | .http1_1 => 2
  | .http2_0 => 3
  | .http3_0 => 4

/-- Derived `PartialOrd`/`Ord`, src/version.rs:2. -/
def cmp (a b : Version) : Ordering := compare a.ord b.ord

/-- `AsRef<str>`, `Display`, `Serialize`, src/version.rs:29-36, 79-95. -/
def asStr : Version → Str
  | .http0_9 => s!!"HTTP/0.9"
  | .http1_0 => s!!"HTTP/1.0"
  | .http1_1 => s!!"HTTP/1.1"
  | .http2_0 => s!!"HTTP/2"
  | .http3_0 => s!!"HTTP/3"

/-- The serde visitor, src/version.rs:47-67 (`none` = deserialisation error). -/
def deserialize (s : Str) : Option Version :=
  if s = s!!"HTTP/0.9" then some .http0_9
  else if s = s!!"HTTP/1.0" then some .http1_0
  else if s = s!!"HTTP/1.1" then some .http1_1
  else if s = s!!"HTTP/2" then some .http2_0
  else if s = s!!"HTTP/3" then some .http3_0
  else none

end Version
end HT
