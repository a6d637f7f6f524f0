import Verif.Model.Forwarded
import Verif.Model.Headers

/-! Tests of src/proxies/forwarded.rs about the model; see `Verif/Conform/Basic.lean`. The texts of errors are not modelled. -/

namespace HT.Conform

open Forwarded

/-- The addresses of a text. -/
def forOf (s : Str) : Res (List Str) := (parse s).map (·.forwardedFor)

/-- Headers after appending these, none of which fails. -/
def appended (kvs : List (Str × Str)) : Headers :=
  kvs.foldl (fun h kv => (Headers.append h (lower kv.1) (.str kv.2)).1) []

/-- The one IPv6 address of these tests. -/
def v6 (s : Str) : Option Str := if s = s!!"2001:db8:cafe::17" then some s else none

/-! src/proxies/forwarded.rs:474-532 -/

example : startsWithIgnoreCase s!!"helloooooo" s!!"h" = .ok false := by decide +kernel
example : forOf s!!"for=\"_gazonk\"" = .ok [s!!"_gazonk"] := by decide +kernel
example : forOf s!!"For=\"[2001:db8:cafe::17]:4711\"" = .ok [s!!"[2001:db8:cafe::17]:4711"] := by decide +kernel
example : forOf s!!"for=192.0.2.60;proto=http;by=203.0.113.43" = .ok [s!!"192.0.2.60"] := by decide +kernel
example : forOf s!!"for=192.0.2.43, for=198.51.100.17" = .ok [s!!"192.0.2.43", s!!"198.51.100.17"] := by decide +kernel
example : forOf s!!"for=192.0.2.43,for=\"[2001:db8:cafe::17]\",for=unknown" =
    forOf s!!"for=192.0.2.43, for=\"[2001:db8:cafe::17]\", for=unknown" ∧
    forOf s!!"for=192.0.2.43,for=\"[2001:db8:cafe::17]\",for=unknown" =
      .ok [s!!"192.0.2.43", s!!"[2001:db8:cafe::17]", s!!"unknown"] := by decide +kernel
example : forOf s!!"for=192.0.2.43,for=\"this is a valid quoted-string, \\\" \\\\\",for=unknown" =
    .ok [s!!"192.0.2.43", s!!"this is a valid quoted-string, \" \\", s!!"unknown"] := by decide +kernel
example : parse s!!"for=client.com;by=proxy.com;host=host.com;proto=https" =
    .ok ⟨some s!!"proxy.com", [s!!"client.com"], some s!!"host.com", some s!!"https"⟩ := by decide +kernel

/-! src/proxies/forwarded.rs:534-597 -/

example : [s!!"by=proxy.com;for=client;host=example.com;host", s!!"by;for;host;proto", s!!"for=for, key=value",
    s!!"for=\"unterminated string", s!!"for=, for=;"].map parse = List.replicate 5 (.err 500) := by decide +kernel
example : fromHeaders v6 (appended [(s!!"forwarded", s!!"uh oh")]) = .err 500 := by decide +kernel
example : fromHeaders v6 [] = .ok none := by decide +kernel
example : (fromHeaders v6 (appended [(X_FOR, s!!"192.0.2.43, 2001:db8:cafe::17"), (X_PROTO, s!!"gopher"),
      (X_HOST, s!!"example.com")])).map (·.map headerValue) =
    .ok (some s!!"for=192.0.2.43, for=\"[2001:db8:cafe::17]\";host=example.com;proto=gopher") := by decide +kernel

/-! src/proxies/forwarded.rs:599-673 -/

example : headerValue (addFor (addFor {} s!!"quote: \" backslash: \\") s!!";proto=https") =
    s!!"for=\"quote: \\\" backslash: \\\\\", for=\";proto=https\"" := by decide +kernel
example : parse s!!"for=\";\", for=\",\", for=\"\\\"\", for=unquoted;by=\";proto=https\"" =
    .ok ⟨some s!!";proto=https", [s!!";", s!!",", s!!"\"", s!!"unquoted"], none, none⟩ := by decide +kernel
example : parse s!!"proto=https" = .ok { proto := some s!!"https" } := by decide +kernel
example : parse s!!"for=client;by=proxy.com;host=example.com;proto=https" =
    .ok ⟨some s!!"proxy.com", [s!!"client"], some s!!"example.com", some s!!"https"⟩ := by decide +kernel
example : fromHeaders v6 (appended [(s!!"Forwarded", s!!"for=for")]) = .ok (some { forwardedFor := [s!!"for"] }) := by
  decide +kernel
example : (fromHeaders v6 (appended [(s!!"Forwarded", s!!"for=for;by=by;host=host;proto=proto")])).map (·.map (·.by')) =
    .ok (some (some s!!"by")) := by decide +kernel
example : ∀ s ∈ [s!!"for=client,for=b,for=c;by=proxy.com;host=example.com;proto=https",
      s!!"by=proxy.com;proto=https;host=example.com;for=a,for=b"],
    parse s ≠ .err 500 ∧ parse s ≠ .panic ∧ ((parse s).bind fun f => parse f.headerValue) = parse s := by decide +kernel

end HT.Conform
