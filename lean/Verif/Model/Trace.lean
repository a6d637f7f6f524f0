import Verif.Model.Simple

/-! Model of `src/trace/trace_context.rs`. Random ids are parameters. -/

namespace HT

/-- `TraceContext`, src/trace/trace_context.rs:37-44. -/
structure TraceContext where
  id : Nat
  version : Nat
  traceId : Nat
  parentId : Option Nat
  flags : Nat
  deriving DecidableEq, Repr

namespace TraceContext

/-- `TRACEPARENT`, src/headers/constants.rs:167. -/
def NAME : HeaderName := s!!"traceparent"

/-- `TraceContext::new`, src/trace/trace_context.rs:61-69; the two random numbers are arguments. -/
def new (randId randTrace : Nat) : TraceContext := ⟨randId, 0, randTrace, none, 1⟩

/-- `parts[i]`. -/
def part (parts : List Str) (i : Nat) : Res Str := Res.unwrap parts[i]?

/-- `from_headers` on the header's text, src/trace/trace_context.rs:109-117, with the random id as an
argument. The fields are evaluated in order; the error of the version keeps its default status. -/
def parse (randId : Nat) (v : Str) : Res TraceContext :=
  let parts := split '-' v
  (part parts 0).bind fun p0 =>
  (Res.ofOption 500 (parseRadix 16 u8Max1 p0)).bind fun version =>
  (part parts 1).bind fun p1 =>
  ((Res.ofOption 500 (parseRadix 16 u128Max1 p1)).status 400).bind fun traceId =>
  (part parts 2).bind fun p2 =>
  ((Res.ofOption 500 (parseRadix 16 u64Max1 p2)).status 400).bind fun parentId =>
  (part parts 3).bind fun p3 =>
  ((Res.ofOption 500 (parseRadix 16 u8Max1 p3)).status 400).bind fun flags =>
    .ok ⟨randId, version, traceId, some parentId, flags⟩

/-- `from_headers`, src/trace/trace_context.rs:102-118: `as_str` goes through `Deref`, the first
value. -/
def fromHeaders (randId : Nat) (h : Headers) : Res (Option TraceContext) :=
  match h.get NAME with
  | none => .ok none
  | some vs => vs.first.bind fun v => (parse randId v).map some

/-- `child`, src/trace/trace_context.rs:124-132. -/
def child (c : TraceContext) (randId : Nat) : TraceContext :=
  ⟨randId, c.version, c.traceId, some c.id, c.flags⟩

/-- `sampled`, src/trace/trace_context.rs:176-178. -/
def sampled (c : TraceContext) : Bool := (c.flags &&& 1) == 1

/-- `set_sampled`, src/trace/trace_context.rs:192-195. -/
def setSampled (c : TraceContext) (sampled : Bool) : TraceContext :=
  let x := if sampled then 1 else 0
  { c with flags := c.flags ^^^ ((x ^^^ c.flags) &&& (1 <<< 0)) }

/-- `header_value` and `Display`, src/trace/trace_context.rs:198-217. -/
def headerValue (c : TraceContext) : HeaderValue :=
  hexPad 2 c.version ++ s!!"-" ++ hexPad 32 c.traceId ++ s!!"-" ++ hexPad 16 c.id ++ s!!"-"
    ++ hexPad 2 c.flags

end TraceContext
end HT
