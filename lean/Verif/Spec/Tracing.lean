import Verif.Spec.Trace
import Verif.Model.Trace

/-! A request that is served by calling further services, each of which takes part in the trace. -/

namespace HT.Spec

/-- What a service does with its trace context: it starts a child with a fresh id, or decides whether the trace is
recorded. -/
inductive TraceStep where
  | child (fresh : Nat)
  | record (yes : Bool)

/-- A service on the way: the fresh id it takes, what it does before it calls on, and the other headers of the
request it is called with. -/
structure Service where
  fresh : Nat
  steps : List TraceStep
  req : Headers

/-- A step of a service. -/
def TraceStep.run (c : TraceContext) : TraceStep → TraceContext
  | .child r => c.child r
  | .record b => c.setSampled b

/-- Calling a service with the context `c`: the header is written, the service reads it and does its steps. -/
def call (c : TraceContext) (s : Service) : Res (Option TraceContext) :=
  (applyHeader s.req TraceContext.NAME (.ok c.headerValue)).bind fun h =>
    (TraceContext.fromHeaders s.fresh h).map fun o => o.map fun d => s.steps.foldl TraceStep.run d

/-- Each service calls the next one. -/
def calls : TraceContext → List Service → Res (Option TraceContext)
  | c, [] => .ok (some c)
  | c, s :: ss => (call c s).bind fun
    | none => .ok none
    | some d => calls d ss

/-- The fresh ids taken in a service, in order. -/
def Service.ids (s : Service) : List Nat :=
  s.fresh :: s.steps.filterMap fun | .child r => some r | .record _ => none

/-- The decisions made in a service, in order. -/
def Service.decisions (s : Service) : List Bool :=
  s.steps.filterMap fun | .child _ => none | .record b => some b

end HT.Spec
