import Verif.Model.JobArgs
import Verif.Model.Site
import Verif.Model.Wire
/-
The request that `client create` sends to each endpoint, pkg/client/endpoint.go:90-136, as it comes in at
the server, cmd/server.go:329-358: its body is written as JSON and read again.
-/
namespace Swoll.Order
open Swoll
open Swoll.JobArgs (Request)

/-- What the client writes. (endpoint.go:91; trace_types.go:37-44) -/
def written (r : Request) : Wire.Spec :=
  ⟨⟨r.spec.labels, []⟩, ⟨r.spec.fields, []⟩, r.spec.hosts, r.spec.syscalls, r.spec.duration, r.spec.sampleRate⟩

/-- An operator; Simplification: conditions with another one are left out, as nothing looks at them.
(trace_types.go:38-39) -/
def oper (s : Json.Str) : Option Cluster.Oper :=
  if s = "In".toList then some .isIn else if s = "NotIn".toList then some .notIn
  else if s = "Exists".toList then some .exist else if s = "DoesNotExist".toList then some .doesNotExist else none

/-- A selector that was read. (server.go:355) -/
def selector (s : Wire.Selector) : Cluster.Selector :=
  ⟨s.labels, s.exprs.filterMap (fun e => (oper e.op).map (⟨e.key, ·, e.values⟩))⟩

/-- The selectors of a request. (server.go:355, 361-370) -/
def sel (s : Wire.Spec) : Cluster.Sel := ⟨selector s.label, selector s.field⟩

/-- The rest of its body. (server.go:355, 361-370) -/
def body (s : Wire.Spec) : Service.Body :=
  { hosts := s.hosts.map String.ofList, calls := s.calls.map String.ofList, rate := s.rate, duration := s.duration }

/-- A request with this body, as it comes in. (server.go:329-358) -/
def arrives (ns : String) (id : Option String) (uuid : String) (text : Json.Str) : Site.Op :=
  match Wire.readSpec text with
  | some s => .create ns (sel s) id uuid true (body s)
  | none => .create ns (sel .zero) id uuid false (body .zero)

/-- The request as it comes in: the namespace is part of the path, the id is an argument unless it is empty;
`uuid` is what the server would call the job itself. (endpoint.go:90-109; server.go:329-358) -/
def received (r : Request) (uuid : String) : Site.Op :=
  arrives (String.ofList r.ns) (if r.jobid = [] then none else some (String.ofList r.jobid)) uuid
    (Wire.requestBody (written r))

end Swoll.Order
