import Verif.Model.Duration
import Verif.Model.JobArgs
/-
What clients and the server send each other about traces: the body of a create request, its answer and the list of
jobs. api/v1alpha1/trace_types.go:37-71, cmd/server.go:38-41, 93-103, 152-169, 291-303, 355-382,
pkg/client/endpoint.go:46-49, 90-136, 300-363.

Simplifications: a slice that is empty and one that is nil are the same. The elements of an array that is given twice
are read afresh, and so is a null in a list. Of the metadata only the namespace and the link to the job are kept, and
of the status only the name of the job; the rest is empty when a job is created (server.go:361-370) and is skipped
when it is read.
-/
namespace Swoll.Wire
open Swoll.Json
open Swoll.JobArgs (strLE)

/-- `metav1.LabelSelectorRequirement`. (Library, used by trace_types.go:38-39.) -/
structure Expr where
  key : Str
  op : Str
  values : List Str
  deriving DecidableEq, Repr

/-- `metav1.LabelSelector`. (Library, used by trace_types.go:38-39.) -/
structure Selector where
  labels : GoMap Str Str
  exprs : List Expr
  deriving DecidableEq, Repr

/-- `TraceSpec`; the duration is in nanoseconds. (trace_types.go:37-44) -/
structure Spec where
  label : Selector
  field : Selector
  hosts : List Str
  calls : List Str
  duration : Int
  rate : Int
  deriving DecidableEq, Repr

/-- `Trace`. (trace_types.go:62-69) -/
structure Trace where
  ns : Str
  selfLink : Str
  spec : Spec
  job : Str
  deriving DecidableEq, Repr

/-- The zero values. (server.go:352, trace_types.go:37-44) -/
def Selector.zero : Selector := ⟨[], []⟩
/-- See above. (server.go:352) -/
def Spec.zero : Spec := ⟨.zero, .zero, [], [], 0, 0⟩
/-- See above. (trace_types.go:62-69) -/
def Trace.zero : Trace := ⟨[], [], .zero, []⟩

/-! ### Writing -/

/-- A field with `omitempty`. (trace_types.go:37-44) -/
def opt (empty : Bool) (name : String) (v : Json) : List (Str × Json) := if empty then [] else [(name.toList, v)]

/-- A `[]string`. (trace_types.go:40-41) -/
def ofStrs (l : List Str) : Json := .arr (l.map .str)

/-- A `map[string]string`, with its keys sorted. (Library, used by trace_types.go:38-39.) -/
def ofMap (m : GoMap Str Str) : Json :=
  .obj ((m.mergeSort (fun a b => strLE a.1 b.1)).map (fun e => (e.1, .str e.2)))

/-- An `int`. (trace_types.go:43) -/
def ofInt (n : Int) : Json := .num (Flags.itoa n)

/-- A requirement. (Library, used by trace_types.go:38-39.) -/
def ofExpr (e : Expr) : Json :=
  .obj ([("key".toList, .str e.key), ("operator".toList, .str e.op)] ++
    opt e.values.isEmpty "values" (ofStrs e.values))

/-- A selector. (Library, used by trace_types.go:38-39.) -/
def ofSelector (s : Selector) : Json :=
  .obj (opt s.labels.isEmpty "matchLabels" (ofMap s.labels) ++
    opt s.exprs.isEmpty "matchExpressions" (.arr (s.exprs.map ofExpr)))

/-- A `TraceSpec`; structures are never left out. (trace_types.go:37-44) -/
def ofSpec (s : Spec) : Json :=
  .obj ([("labelSelector".toList, ofSelector s.label), ("fieldSelector".toList, ofSelector s.field)] ++
    opt s.hosts.isEmpty "hostSelector" (ofStrs s.hosts) ++
    opt s.calls.isEmpty "syscalls" (ofStrs s.calls) ++
    [("duration".toList, .str (Duration.text s.duration))] ++
    opt (s.rate == 0) "sampleRate" (ofInt s.rate))

/-- A `Trace`. (trace_types.go:47-69; server.go:361-370) -/
def ofTrace (t : Trace) : Json :=
  .obj [("metadata".toList, .obj (opt t.ns.isEmpty "namespace" (.str t.ns) ++
      opt t.selfLink.isEmpty "selfLink" (.str t.selfLink) ++ [("creationTimestamp".toList, .null)])),
    ("spec".toList, ofSpec t.spec),
    ("status".toList, .obj (opt t.job.isEmpty "job" (.str t.job)))]

/-- A `traceJob` that is not behind a pointer: `MarshalJSON` is not called. (server.go:38-41) -/
def ofJob (id : Str) (t : Trace) : Json := .obj [("id".toList, .str id), ("traceSpec".toList, ofTrace t)]

/-- A `*traceJob`, with the containers that are monitored. (server.go:93-103) -/
def ofListed (hosts : List Str) (id : Str) (t : Trace) : Json :=
  .obj [("monitoredHosts".toList, ofStrs hosts), ("id".toList, .str id), ("traceSpec".toList, ofTrace t)]

/-- One of the tables of jobs, sorted; with each id come the monitored containers and the trace.
(server.go:296-298) -/
def ofJobs (m : GoMap Str (List Str × Trace)) : Json :=
  .obj ((m.mergeSort (fun a b => strLE a.1 b.1)).map (fun e => (e.1, ofListed e.2.1 e.1 e.2.2)))

/-- The body of a create request. (endpoint.go:91) -/
def requestBody (s : Spec) : Str := (ofSpec s).text

/-- The trace the server makes of a request. (server.go:361-370) -/
def created (ns id : Str) (s : Spec) : Trace := ⟨ns, "/jobs/".toList ++ id, s, id⟩

/-- The answer to a create request. (server.go:152-169, 372, 383) -/
def createdBody (ns id : Str) (s : Spec) : Str := (ofJob id (created ns id s)).pretty 0

/-- The answer to a request for the jobs. (server.go:152-169, 291-303) -/
def jobsBody (running completed : GoMap Str (List Str × Trace)) : Str :=
  (Json.obj [("completed".toList, ofJobs completed), ("running".toList, ofJobs running)]).pretty 0

/-! ### Reading -/

/-- A letter for `equalFold` of encoding/json. (Library, used at server.go:355.) -/
def fold (c : Char) : Char :=
  if 65 ≤ c.toNat ∧ c.toNat ≤ 90 then Char.ofNat (c.toNat + 32)
  else if c.toNat = 0x212a then 'k' else if c.toNat = 0x17f then 's' else c

/-- Is this the name of a field? (`decodeState.object`; library, used at server.go:355.) -/
def named (name : String) (k : Str) : Bool := k.map fold == name.toList.map fold

/-- A `string`. (`literalStore`; library, used at server.go:355.) -/
def str (old : Str) : Json → Option Str
  | .null => some old
  | .str s => some s
  | _ => none

/-- A `[]string`. Simplification: a list that is given a second time is read as a new one; Go keeps an element of the
first where the second has a null. (`decodeState.array`; library, used at server.go:355.) -/
def strs : Json → Option (List Str)
  | .null => some []
  | .arr l => l.mapM (str [])
  | _ => none

/-- A `map[string]string`. (`decodeState.object`; library, used at server.go:355.) -/
def strMap (old : GoMap Str Str) : Json → Option (GoMap Str Str)
  | .null => some []
  | .obj l => l.foldlM (fun m e => (str [] e.2).map (GoMap.set m e.1)) old
  | _ => none

/-- An `int`. (`literalStore`; library, used at server.go:355.) -/
def int (old : Int) : Json → Option Int
  | .null => some old
  | .num l => Flags.atoi l
  | _ => none

/-- A `metav1.Duration`: a null is read as an empty text, which is no duration. (Library, used at server.go:355.) -/
def duration : Json → Option Int
  | .null => Duration.parse []
  | .str s => Duration.parse s
  | _ => none

/-- A structure, field by field. (`decodeState.object`; library, used at server.go:355.) -/
def struct {α : Type} (member : α → Str × Json → Option α) (old : α) : Json → Option α
  | .null => some old
  | .obj l => l.foldlM member old
  | _ => none

/-- A field of a requirement. (Library, used at server.go:355.) -/
def exprMember (e : Expr) (m : Str × Json) : Option Expr :=
  if named "key" m.1 then (str e.key m.2).map ({ e with key := · })
  else if named "operator" m.1 then (str e.op m.2).map ({ e with op := · })
  else if named "values" m.1 then (strs m.2).map ({ e with values := · })
  else some e

/-- A `[]LabelSelectorRequirement`, with the simplification of `strs`. (Library, used at server.go:355.) -/
def exprs : Json → Option (List Expr)
  | .null => some []
  | .arr l => l.mapM (struct exprMember ⟨[], [], []⟩)
  | _ => none

/-- A field of a selector. (Library, used at server.go:355.) -/
def selectorMember (s : Selector) (m : Str × Json) : Option Selector :=
  if named "matchLabels" m.1 then (strMap s.labels m.2).map ({ s with labels := · })
  else if named "matchExpressions" m.1 then (exprs m.2).map ({ s with exprs := · })
  else some s

/-- A field of a `TraceSpec`. (trace_types.go:37-44; server.go:355) -/
def specMember (s : Spec) (m : Str × Json) : Option Spec :=
  if named "labelSelector" m.1 then (struct selectorMember s.label m.2).map ({ s with label := · })
  else if named "fieldSelector" m.1 then (struct selectorMember s.field m.2).map ({ s with field := · })
  else if named "hostSelector" m.1 then (strs m.2).map ({ s with hosts := · })
  else if named "syscalls" m.1 then (strs m.2).map ({ s with calls := · })
  else if named "duration" m.1 then (duration m.2).map ({ s with duration := · })
  else if named "sampleRate" m.1 then (int s.rate m.2).map ({ s with rate := · })
  else some s

/-- A field of the metadata. (trace_types.go:64) -/
def metaMember (t : Trace) (m : Str × Json) : Option Trace :=
  if named "namespace" m.1 then (str t.ns m.2).map ({ t with ns := · })
  else if named "selfLink" m.1 then (str t.selfLink m.2).map ({ t with selfLink := · })
  else some t

/-- A field of the status. (trace_types.go:47-52) -/
def statusMember (t : Trace) (m : Str × Json) : Option Trace :=
  if named "job" m.1 then (str t.job m.2).map ({ t with job := · }) else some t

/-- A field of a `Trace`. (trace_types.go:62-69) -/
def traceMember (t : Trace) (m : Str × Json) : Option Trace :=
  if named "metadata" m.1 then struct metaMember t m.2
  else if named "spec" m.1 then (struct specMember t.spec m.2).map ({ t with spec := · })
  else if named "status" m.1 then struct statusMember t m.2
  else some t

/-- A `*Trace`: nil for a null. (endpoint.go:48) -/
def tracePtr (old : Option Trace) : Json → Option (Option Trace)
  | .null => some none
  | v => (struct traceMember (old.getD .zero) v).map some

/-- A field of the `traceJob` of the client: the id and the trace. (endpoint.go:46-49) -/
def jobMember (j : Str × Option Trace) (m : Str × Json) : Option (Str × Option Trace) :=
  if named "id" m.1 then (str j.1 m.2).map (·, j.2)
  else if named "traceSpec" m.1 then (tracePtr j.2 m.2).map (j.1, ·)
  else some j

/-- A `map[string]traceJob`. (endpoint.go:347) -/
def jobMap : Json → Option (GoMap Str (Str × Option Trace))
  | .null => some []
  | .obj l => l.foldlM (fun m e => (struct jobMember ([], none) e.2).map (GoMap.set m e.1)) []
  | _ => none

/-- A `map[string]map[string]traceJob`. (endpoint.go:347-351) -/
def jobMaps : Json → Option (GoMap Str (GoMap Str (Str × Option Trace)))
  | .null => some []
  | .obj l => l.foldlM (fun m e => (jobMap e.2).map (GoMap.set m e.1)) []
  | _ => none

/-- What the server makes of the body of a create request; `none` is a bad request. (server.go:352-358) -/
def readSpec (body : Str) : Option Spec := (first body).bind (struct specMember .zero)

/-- What `CreateTrace` returns; `none` is an error. The trace is nil if the answer has none. (endpoint.go:119-135) -/
def readCreated (status : Nat) (body : Str) : Option (Option Trace) :=
  if status ≠ 201 then none
  else ((only body).bind (struct jobMember ([], none))).map (·.2)

/-- What `getJobs` returns: the running and the completed traces. The order is that of the maps and means nothing.
(endpoint.go:332-363) -/
def readJobs (body : Str) : Option (List (Option Trace) × List (Option Trace)) :=
  ((only body).bind jobMaps).map fun m =>
    (((GoMap.get m "running".toList).getD []).map (·.2.2), ((GoMap.get m "completed".toList).getD []).map (·.2.2))

/-- `RunningJobs`. (endpoint.go:300-306) -/
def runningJobs (body : Str) : Option (List (Option Trace)) := (readJobs body).map (·.1)

/-- `CompletedJobs`. (endpoint.go:309-315) -/
def completedJobs (body : Str) : Option (List (Option Trace)) := (readJobs body).map (·.2)

/-- `AllJobs`. (endpoint.go:318-329) -/
def allJobs (body : Str) : Option (List (Option Trace)) := (readJobs body).map (fun r => r.1 ++ r.2)

end Swoll.Wire
