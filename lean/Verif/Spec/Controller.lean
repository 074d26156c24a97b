import Verif.Model.Controller
/-
What the trace controller should do, in terms of the versions of the object and the jobs.
-/
namespace Swoll.Spec.Controller
open Swoll.Controller

/-- The state of a trace moves at most one step forward. -/
def Forward : TraceState → TraceState → Prop
  | .unknown, .unknown | .unknown, .pending => True
  | .pending, .pending | .pending, .running => True
  | .running, .running | .running, .complete => True
  | .complete, .complete => True
  | _, _ => False

instance (a b : TraceState) : Decidable (Forward a b) := by
  unfold Forward; split <;> infer_instance

/-- Every version follows from the one before it (the list has the latest first). -/
def History (R : Trace → Trace → Prop) : List Trace → Prop
  | newer :: older :: rest => R older newer ∧ History R (older :: rest)
  | _ => True

/-- A run of the controller creates a job. -/
def creates (w : World) (s : Sched) : Bool :=
  decide (w.created.length < (reconcile w s).1.created.length)

/-- How many runs of a sequence create a job and report no error. -/
def goodCreates (w : World) : List Sched → Nat
  | [] => 0
  | s :: ss => (if creates w s && (reconcile w s).2 != .err then 1 else 0)
      + goodCreates (reconcile w s).1 ss

/-- How many create a job and report an error. -/
def badCreates (w : World) : List Sched → Nat
  | [] => 0
  | s :: ss => (if creates w s && (reconcile w s).2 == .err then 1 else 0)
      + badCreates (reconcile w s).1 ss

/-- A world some history of a new object leads to. -/
def Reachable (w : World) : Prop := ∃ d sc o jobs ss, w = run (init (fresh d sc o) jobs) ss

end Swoll.Spec.Controller
