import Verif.Model.Chart
/-
What is meant by a text within a text, and by the rights the two programs should have.
-/
namespace Swoll.Spec.Chart
open Swoll.JobArgs (Str)
open Swoll.Chart

/-- One text is a part of another. -/
def Within (sub s : Str) : Prop := ∃ a b, s = a ++ sub ++ b

/-- The server may read pods. -/
def ServerMay (q : Req) : Prop := q.group = "" ∧ q.resource = "pods" ∧ q.verb ∈ ["get", "list", "watch"]

/-- The controller may read nodes, work with jobs and traces, and, in its own namespace only, with what it elects its leader
by: config maps and events. -/
def ControllerMay (own : Str) (q : Req) : Prop :=
  (q.group = "" ∧ q.resource = "nodes" ∧ q.verb ∈ ["get", "list", "watch"]) ∨
  (q.group = "batch" ∧ q.resource ∈ ["jobs", "jobs/status"]) ∨
  (q.group = "tools.swoll.criticalstack.com" ∧ q.resource ∈ ["traces", "traces/status"]) ∨
  (q.ns = some own ∧ q.group = "" ∧ q.resource ∈ ["configmaps", "configmaps/status", "events"])

end Swoll.Spec.Chart
