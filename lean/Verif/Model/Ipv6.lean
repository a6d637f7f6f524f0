import Verif.Core.Num
import Verif.Model.Forwarded

/-! IPv6 addresses as the standard library reads and prints them (`core::net`, src/core/net/parser.rs and ip_addr.rs of Rust
1.80), which src/proxies/forwarded.rs:154-160 goes by. A reader gives what it read and what is left. -/

namespace HT
namespace Ip

/-- The loop of `read_number`: value, number of digits, rest. -/
def numLoop (radix max acc count : Nat) : Str → Option (Nat × Nat × Str)
  | [] => some (acc, count, [])
  | c :: s =>
    match toDigit radix c with
    | none => some (acc, count, c :: s)
    | some d => if max < count + 1 then none else numLoop radix max (acc * radix + d) (count + 1) s

/-- `read_number`. -/
def readNumber (radix max : Nat) (allowZeroPrefix : Bool) (bound : Nat) (s : Str) : Option (Nat × Str) :=
  match numLoop radix max 0 0 s with
  | none => none
  | some (n, count, rest) =>
    if count = 0 then none
    else if !allowZeroPrefix && s.head? == some '0' && decide (1 < count) then none
    else if n < bound then some (n, rest) else none

/-- `read_given_char`. -/
def readChar (c : Char) : Str → Option Str
  | [] => none
  | x :: s => if x = c then some s else none

/-- `read_separator`. -/
def readSep {α : Type} (c : Char) (i : Nat) (p : Str → Option (α × Str)) (s : Str) : Option (α × Str) :=
  if 0 < i then (readChar c s).bind p else p s

/-- `read_ipv4_addr`, unrolled. -/
def readV4 (s : Str) : Option ((Nat × Nat × Nat × Nat) × Str) :=
  (readSep '.' 0 (readNumber 10 3 false 256) s).bind fun (a, s) =>
  (readSep '.' 1 (readNumber 10 3 false 256) s).bind fun (b, s) =>
  (readSep '.' 2 (readNumber 10 3 false 256) s).bind fun (c, s) =>
  (readSep '.' 3 (readNumber 10 3 false 256) s).bind fun (d, s) => some ((a, b, c, d), s)

/-- `read_groups` with this many slots left, before slot `i`: the groups, whether they end in an IPv4 address, the rest. -/
def readGroups : Nat → Nat → Str → List Nat × Bool × Str
  | 0, _, s => ([], false, s)
  | n + 1, i, s =>
    match (if 1 ≤ n then readSep ':' i readV4 s else none) with
    | some ((a, b, c, d), r) => ([a * 256 + b, c * 256 + d], true, r)
    | none =>
      match readSep ':' i (readNumber 16 4 true 65536) s with
      | none => ([], false, s)
      | some (g, r) =>
        let (gs, v4, r') := readGroups n (i + 1) r
        (g :: gs, v4, r')

/-- `read_ipv6_addr`: the eight groups. -/
def readV6 (s : Str) : Option (List Nat × Str) :=
  let (head, v4, r) := readGroups 8 0 s
  if head.length = 8 then some (head, r)
  else if v4 then none
  else
    (readChar ':' r).bind fun r => (readChar ':' r).bind fun r =>
      let (tail, _, r) := readGroups (8 - (head.length + 1)) 0 r
      some (head ++ List.replicate (8 - head.length - tail.length) 0 ++ tail, r)

/-- `IpAddr::from_str`, when it gives `IpAddr::V6`: `read_ip_addr` tries IPv4 first, and all has to be read. -/
def parseV6 (s : Str) : Option (List Nat) :=
  match readV4 s with
  | some _ => none
  | none =>
    match readV6 s with
    | some (a, []) => some a
    | _ => none

/-- `fmt_subslice`. -/
def chunk (a : List Nat) : Str := join s!!":" (a.map (natStr 16))

/-- The loop that finds the longest span of zeros: start and length. -/
def spanLoop (i : Nat) (longest current : Nat × Nat) : List Nat → Nat × Nat
  | [] => longest
  | x :: xs =>
    if x = 0 then
      let current := (if current.2 = 0 then i else current.1, current.2 + 1)
      spanLoop (i + 1) (if longest.2 < current.2 then current else longest) current xs
    else spanLoop (i + 1) longest (0, 0) xs

/-- `Display for Ipv6Addr`. -/
def printV6 (a : List Nat) : Str :=
  match a with
  | [0, 0, 0, 0, 0, 65535, x, y] =>
    s!!"::ffff:" ++ dec (x / 256) ++ s!!"." ++ dec (x % 256) ++ s!!"." ++ dec (y / 256) ++ s!!"." ++ dec (y % 256)
  | a =>
    let z := spanLoop 0 (0, 0) (0, 0) a
    if 1 < z.2 then chunk (a.take z.1) ++ s!!"::" ++ chunk (a.drop (z.1 + z.2)) else chunk a

/-- What src/proxies/forwarded.rs:154-160 makes of an entry that is an IPv6 address, without the brackets. -/
def v6 (s : Str) : Option Str := (parseV6 s).map printV6

end Ip
end HT
