import Verif.Model.Sync
/-
What users expect of goroutines: they do not get into each other's way, and none waits for ever.
-/
namespace Swoll.Spec.Sync
open Swoll.Sync

/-- One run for each goroutine. -/
inductive Each : List Prog → List (List Act) → Prop where
  | nil : Each [] []
  | cons {p ps t ts} : Runs p t → Each ps ts → Each (p :: ps) (t :: ts)

/-- The configurations that the goroutines `gs` can get into, whatever branches they take and
however they are scheduled. -/
def Reach (gs : List Prog) (c : Cfg) : Prop :=
  ∃ todo is, Each gs todo ∧ Steps (start todo) is c

/-- The action reads or writes the table. -/
def Touches (a : Act) (v : Var) : Prop := a = .read v ∨ a = .write v

/-- Two goroutines are about to touch the table, one of them to write to it.  For a Go map this ends
the process ("concurrent map read and map write"), for a websocket connection it panics. -/
def Racy (c : Cfg) (v : Var) : Prop :=
  ∃ (i j : Nat) (a b : Act) (xs ys : List Act), i ≠ j ∧ c.todo[i]? = some (a :: xs) ∧ c.todo[j]? = some (b :: ys) ∧
    Touches a v ∧ Touches b v ∧ (a = .write v ∨ b = .write v)

/-- Goroutine `i` is about to release a lock it does not have, which ends the process. -/
def Misuses (c : Cfg) (i : Nat) : Prop :=
  ∃ l xs, (c.todo[i]? = some (.unlock l :: xs) ∧ ¬ ((c.locks l).writer = some i ∧ (c.locks l).held = true)) ∨
    (c.todo[i]? = some (.runlock l :: xs) ∧ i ∉ (c.locks l).readers)

/-- Every goroutine is done. -/
def Finished (c : Cfg) : Prop := ∀ t ∈ c.todo, t = []

/-- Nobody can go on although somebody is not done. -/
def Deadlock (c : Cfg) : Prop := ¬ Finished c ∧ ∀ i c', ¬ Step c i c'

/-- Nobody has or waits for a lock. -/
def Free (c : Cfg) : Prop := ∀ l, c.locks l = {}

/-- The tables that have a lock of their own. -/
def Locked : Var → Prop
  | .jobs | .tree | .cache _ | .runningJobs | .completedJobs | .queue => True
  | _ => False

/-- The goroutine is about to send something to a client that watches, which takes as long as the client
likes (up to the deadline the code sets). -/
def Sending (c : Cfg) (i : Nat) : Prop := ∃ k rest, c.todo[i]? = some (.write (.conn k) :: rest)

/-- The goroutine is about to send the answer to a request, which takes as long as the client likes. -/
def Replying (c : Cfg) (i : Nat) : Prop := ∃ k rest, c.todo[i]? = some (.write (.reply k) :: rest)

/-- The goroutine is done. -/
def Done (c : Cfg) (i : Nat) : Prop := c.todo[i]? = some []

/-- The goroutines of a server that have nothing to do with events: the requests for the list of jobs
and for a new job, the metrics and the containers. -/
inductive Quiet : Prog → Prop where
  | containers : Quiet (topologyRun 0 metricsCallback)
  | stats : Quiet statsLoop
  | list (k : Nat) : Quiet (getJobs k)
  | create (j : Nat) : Quiet (createJob j)
  | update : Quiet updateClouds
  | draw : Quiet drawClouds
  | collect : Quiet readMetrics

end Swoll.Spec.Sync
