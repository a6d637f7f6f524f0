import Verif.Model.Headers

/-!
Cookies as header values, `src/headers/header_value.rs` (feature `cookies`, on by default).
-/

namespace HT

/-- `cookie::Cookie` (cookie 0.16) as far as its `Display` goes: name, value and the texts of the attributes that are
set, such as `HttpOnly` or `Path=/`, in the order they are written. The texts are kept as they were given; encoding them is
left to the caller (`Cookie::encoded`). -/
structure Cookie where
  name : Str
  value : Str
  attrs : List Str
  deriving DecidableEq, Repr

/-- `Display for Cookie` (cookie 0.16): name and value, then `; ` and the text for every attribute. -/
def Cookie.display (c : Cookie) : Str := c.name ++ s!!"=" ++ c.value ++ c.attrs.flatMap fun a => s!!"; " ++ a

/-- `From<Cookie> for HeaderValue`, src/headers/header_value.rs:59-66: no ASCII check. -/
def Cookie.toHeaderValue (c : Cookie) : HeaderValue := c.display

end HT
