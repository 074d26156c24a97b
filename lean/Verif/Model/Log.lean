import Verif.Model.EventRead
/-
The log of a trace: the pod the controller starts for a Trace resource runs `swoll client create --oneshot`
(internal/pkg/controller/trace.go:59-73), which prints every event it is sent as a line of JSON, cmd/client.go:330-332;
`hack/tools/pretty_logs.go` reads such a log and prints it for people.

Simplifications: how the tool lays out a line (pretty_logs.go:47-57) is left out, it gives the event it prints; a payload
given twice is read anew.
-/
namespace Swoll.Log
open Swoll.Event Swoll.EventJSON Swoll.EventText Swoll.EventRead
open Swoll.Json (Str Json)

/-- `Endpoint`, pkg/client/endpoint.go:33-37. -/
structure Endpoint where
  host : Str
  port : Int
  tls : Bool
  deriving DecidableEq, Repr

/-- The JSON of an endpoint. (endpoint.go:33-37) -/
def Endpoint.json (ep : Endpoint) : Json :=
  .obj [("hostname".toList, .str ep.host), ("port".toList, Wire.ofInt ep.port), ("UseTLS".toList, .bool ep.tls)]

/-- The argument type of an event. (pkg/event/trace.go:75-201) -/
def typeOf (ev : TraceEvent Topology.Container) : String :=
  ((ev.syscall.bind fun s => jsonTypes.lookup s.nr)).getD ""

/-- `json.Marshal` of a `StreamMessage`. (cmd/client.go:331; endpoint.go:41-44) -/
def entry (env : Env) (m : Memory) (ep : Endpoint) (ev : TraceEvent Topology.Container) : Str :=
  '{' :: Json.quote "endpoint".toList ++ ':' :: ep.json.text ++ ',' :: Json.quote "payload".toList ++ ':' ::
    (eventDoc env m (typeOf ev) ev).text ++ ['}']

/-- A line of the log. (cmd/client.go:332) -/
def line (env : Env) (m : Memory) (ep : Endpoint) (ev : TraceEvent Topology.Container) : Str := entry env m ep ev ++ ['\n']

/-! ### Reading a log -/

/-- The lines of a text, `cur` being what has been read of the first. (`bufio.ScanLines`; library, used at
pretty_logs.go:17-19.) -/
def split (cur : Str) : Str → List Str
  | [] => if cur = [] then [] else [cur]
  | c :: s => if c = '\n' then cur :: split [] s else split (cur ++ [c]) s

/-- A line without the carriage return at its end. (`dropCR`; library, as above.) -/
def dropCR (s : Str) : Str := if s.getLast? = some '\r' then s.dropLast else s

/-- `bufio.MaxScanTokenSize`: a line has to fit into the scanner's buffer with its end. (Library, used at
pretty_logs.go:17.) -/
def maxLine : Nat := 65536

/-- The members of an `Endpoint`, endpoint.go:33-37: whether they are of the right type. -/
def endpointOk : Json → Bool
  | .null => true
  | .obj l => l.all fun e =>
    if Wire.named "hostname" e.1 then (Wire.str [] e.2).isSome
    else if Wire.named "port" e.1 then (Wire.int 0 e.2).isSome
    else if Wire.named "UseTLS" e.1 then match e.2 with
      | .bool _ | .null => true
      | _ => false
    else true
  | _ => false

/-- The members of a `StreamMessage`: an endpoint of a wrong type is remembered (`bad`) and reported at the end, an error
in the payload at once. (`decodeState.object`, `saveError`; library, used at pretty_logs.go:28.) -/
def messageOf (env : Env) : List (Str × Json) → Bool → Option (TraceEvent Topology.Container) →
    Res (Option (TraceEvent Topology.Container))
  | [], bad, ev => if bad then .err else .ok ev
  | (k, v) :: l, bad, ev =>
    if Wire.named "endpoint" k then messageOf env l (bad || !endpointOk v) ev
    else if Wire.named "payload" k then
      match eventOf env v with
      | .ok ev => messageOf env l bad ev
      | .err => .err
      | .panic => .panic
    else messageOf env l bad ev

/-- `json.Unmarshal(b, &event)`: the payload, if there is one. (pretty_logs.go:28) -/
def readEntry (env : Env) (s : Str) : Res (Option (TraceEvent Topology.Container)) :=
  match Json.only s with
  | none => .err
  | some .null => .ok none
  | some (.obj l) => messageOf env l false none
  | some _ => .err

/-- What the tool does with a line. -/
inductive Did where
  | skipped
  | printed (ev : TraceEvent Topology.Container)
  | crashed

/-- What follows the test of a line's first bytes. (pretty_logs.go:28-57; no payload is a nil dereference at line 33) -/
def decode (env : Env) (s : Str) : Did :=
  match readEntry env s with
  | .err => .skipped
  | .ok (some ev) => .printed ev
  | .ok none | .panic => .crashed

/-- One line: an empty one is skipped, one with a carriage return as its second byte too, and the second byte of a line
with one byte is out of range. (pretty_logs.go:22-57) -/
def handle (env : Env) : Str → Did
  | [] => .skipped
  | [c] => if c.utf8Size = 1 then .crashed else decode env [c]
  | c :: d :: s => if c.utf8Size = 1 ∧ d = '\r' then .skipped else decode env (c :: d :: s)

/-- How the tool ends: it has read all, a line was too long, or it has crashed. (pretty_logs.go:19-61) -/
inductive Ending where
  | all
  | tooLong
  | crashed
  deriving DecidableEq, Repr

/-- The loop of the tool. (pretty_logs.go:19-61) -/
def loop (env : Env) : List Str → List (TraceEvent Topology.Container) × Ending
  | [] => ([], .all)
  | l :: rest =>
    if maxLine ≤ size l then ([], .tooLong)
    else match handle env (dropCR l) with
      | .skipped => loop env rest
      | .printed ev => (ev :: (loop env rest).1, (loop env rest).2)
      | .crashed => ([], .crashed)

/-- The tool: the events it prints, and how it ends. (pretty_logs.go:16-62) -/
def tool (env : Env) (log : Str) : List (TraceEvent Topology.Container) × Ending := loop env (split [] log)

end Swoll.Log
