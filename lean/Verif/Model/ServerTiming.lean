import Verif.Model.Lists
import Verif.Core.Float

/-! Model of src/trace/server_timing. -/

namespace HT

namespace Duration

/-- `Duration::as_secs_f64` (standard library): `secs as f64 + nanos as f64 / 1e9`, as a magnitude. -/
def asSecsF64 (d : Duration) : Nat :=
  Fl.addMag f64Format (Fl.natMag f64Format d.secs)
    (Fl.divMag f64Format (Fl.natMag f64Format d.nanos) (Fl.natMag f64Format 1000000000))

/-- `Duration::from_secs_f64` (standard library, Rust 1.63 and later): negative numbers, NaN and numbers from
2^64 on panic; the fraction is rounded to the nearest nanosecond. -/
def fromSecsF64 : Fl → Res Duration
  | .fin neg m =>
    if neg = true ∧ m ≠ 0 then .panic
    else if 2 ^ 64 * 2 ^ f64Format.unit ≤ m then .panic
    else
      let ns := roundDiv (m * 1000000000) (2 ^ f64Format.unit)
      .ok ⟨ns / 1000000000, ns % 1000000000⟩
  | _ => .panic

/-- `Duration / u32` (standard library): whole nanoseconds, rounded down. -/
def divU32 (d : Duration) (k : Nat) : Duration :=
  let ns := (d.secs * 1000000000 + d.nanos) / k
  ⟨ns / 1000000000, ns % 1000000000⟩

end Duration

/-- `Metric`, src/trace/server_timing/metric.rs:18-22. -/
structure Metric where
  name : Str
  dur : Option Duration
  desc : Option Str
  deriving DecidableEq, Repr

namespace Metric

/-- `Metric::new`, src/trace/server_timing/metric.rs:30-37. -/
def new (name : Str) (dur : Option Duration) (desc : Option Str) : Res Metric :=
  if isAscii name then
    match desc with
    | some d => if isAscii d then .ok ⟨name, dur, desc⟩ else .err 500
    | none => .ok ⟨name, dur, desc⟩
  else .err 500

/-- The closure `f` of `From<Metric> for HeaderValue`, src/trace/server_timing/metric.rs:60, as printed. -/
def millis (d : Duration) : Str :=
  Fl.display f64Format (.fin false (Fl.mulMag f64Format d.asSecsF64 (Fl.natMag f64Format 1000)))

/-- `From<Metric> for HeaderValue`, src/trace/server_timing/metric.rs:55-74, with the closure as an argument. -/
def textOf (f : Duration → Str) (m : Metric) : HeaderValue :=
  match m.dur, m.desc with
  | some d, some t => m.name ++ s!!"; dur=" ++ f d ++ s!!"; desc=\"" ++ t ++ s!!"\""
  | some d, none => m.name ++ s!!"; dur=" ++ f d
  | none, some t => m.name ++ s!!"; desc=\"" ++ t ++ s!!"\""
  | none, none => m.name

/-- `From<Metric> for HeaderValue`, src/trace/server_timing/metric.rs:55-74. -/
def text (m : Metric) : HeaderValue := textOf millis m

/-- The description with its quotes lined up, src/trace/server_timing/parse.rs:70-83. -/
def unquote (v : Str) : Res Str :=
  match v with
  | '"' :: v => if v.getLast? = some '"' then .ok v.dropLast else .err 500
  | v => if v.getLast? = some '"' then .err 500 else .ok v

/-- The loop of `parse_entry`, src/trace/server_timing/parse.rs:45-88. -/
def params : List Str → Option Duration → Option Str → Res (Option Duration × Option Str)
  | [], dur, desc => .ok (dur, desc)
  | part :: parts, dur, desc =>
    if part = [] then .err 500
    else
      match split '=' (trimStart part) with
      | name :: value :: _ =>
        let name := trimEnd name
        let value := trimStart value
        if name = s!!"dur" then
          (Res.ofOption 500 (Fl.parse f64Format value)).bind fun x =>
            (Duration.fromSecsF64 x).bind fun d => params parts (some (d.divU32 1000)) desc
        else if name = s!!"desc" then
          (unquote value).bind fun t => params parts dur (some t)
        else params parts dur desc
      | _ => .err 500

/-- `parse_entry`, src/trace/server_timing/parse.rs:32-96. -/
def parseEntry (s : Str) : Res Metric :=
  match split ';' (trim s) with
  | [] => .err 500
  | name :: parts => (params parts none none).map fun (dur, desc) => ⟨trimEnd name, dur, desc⟩

/-- `parse_header`, src/trace/server_timing/parse.rs:9-18. -/
def parseHeader (s : Str) (entries : List Metric) : Res (List Metric) :=
  loop (split ',' (trim s)) entries
where
  /-- The loop over the parts. -/
  loop : List Str → List Metric → Res (List Metric)
    | [], entries => .ok entries
    | part :: parts, entries => ((parseEntry part).status 400).bind fun e => loop parts (entries ++ [e])

end Metric

namespace ServerTiming

/-- `SERVER_TIMING`, src/headers/constants.rs:151. -/
def name : HeaderName := s!!"server-timing"

/-- The loop of `from_headers`, src/trace/server_timing/mod.rs:78-80. -/
def loop : List HeaderValue → List Metric → Res (List Metric)
  | [], timings => .ok timings
  | v :: vs, timings => (Metric.parseHeader v timings).bind fun timings => loop vs timings

/-- `ServerTiming::from_headers`, src/trace/server_timing/mod.rs:71-82. -/
def fromHeaders (h : Headers) : Res (Option (List Metric)) :=
  match h.get name with
  | none => .ok none
  | some vs => (loop (HeaderValues.iter vs) []).map some

/-- `ServerTiming::header_value`, src/trace/server_timing/mod.rs:109-122. -/
def value (ms : List Metric) : Res HeaderValue := .ok (writeLoop [] true (ms.map Metric.text))

end ServerTiming
end HT
