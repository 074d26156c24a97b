import Verif.Model.Cluster
/-
The selectors a user gives to `swoll top` (cmd/top.go:379-431) and to `swoll trace` (cmd/trace.go:30-103,
165-203), and the observers made of them.

Simplifications: the socket of the runtime is where the user says it is; `log.Fatal` ends the program, which
is `none` here; how the words of a command line are told from its flags is left to cobra.
-/
namespace Swoll.CmdLine
open Swoll
open Swoll.JobArgs (Str Rules join labelsMap)
open Swoll.Cluster (Sel)

/-- The observer of `swoll top`; `sel` is what was given with `-l`, `ns` what was given with `-n`.
(cmd/top.go:384-431) -/
def topObserver (cri config root ns sel : String) : Option Topology.Observer :=
  Topology.applyOpts ⟨"", "", "", "", "", "", false⟩
    [.config config, .cri cri true, .namespace ns, .procRoot root, .labels sel, .fields "status.phase=Running"]

/-- The observer of the hub of `swoll trace`. (cmd/trace.go:165-176) -/
def hubObserver (cri config root ns : String) : Option Topology.Observer :=
  Topology.applyOpts ⟨"", "", "", "", "", "", false⟩
    [.cri cri true, .config config, .namespace ns, .labels "swoll!=false", .procRoot root]

/-- The selectors of the trace that `swoll trace` makes of its words and of what was given with `-f`.
(cmd/trace.go:58-97) -/
def traceSel (r : Rules) (words : List Str) (fieldSel : Str) : Option Sel :=
  match labelsMap r (join ' ' words) with
  | none => none
  | some set =>
    if fieldSel = [] then some ⟨⟨set, []⟩, ⟨[], []⟩⟩
    else (labelsMap r fieldSel).map (fun fields => ⟨⟨set, []⟩, ⟨fields, []⟩⟩)

/-- The observer of the job of `swoll trace`, which is asked for in the namespace given with `-n`.
(cmd/trace.go:58-103, 165-203, job.go:92-98) -/
def traceObserver (r : Rules) (cri config root ns : String) (words : List Str) (fieldSel : Str) :
    Option Topology.Observer :=
  match traceSel r words fieldSel with
  | none => none
  | some sel =>
    match hubObserver cri config root ns with
    | none => none
    | some hub => Cluster.jobObserver hub ns sel

end Swoll.CmdLine
