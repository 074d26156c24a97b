import Verif.Util.GoMap
/-
The job lists of the server and the handlers that change them, cmd/server.go. A handler is a sequence
of steps, one for each time it takes a lock; the steps of concurrent requests interleave in any way.
-/
namespace Swoll.Server

variable {Id : Type} [DecidableEq Id]

/-- A job: the number of the request that created it. (server.go:38-42, 366) -/
abbrev Job := Nat

/-- Where a handler is. (of createJobHandler and deleteJobHandler, server.go:324-430) -/
inductive Pc where
  /-- createJobHandler before `running.add` looks for the id, server.go:103. -/
  | createGet
  /-- `running.add` before it stores the job, 107-109. -/
  | createSet
  /-- deleteJobHandler before it looks for the job, 411. -/
  | deleteGet
  /-- deleteJob before `hub.DeleteTrace`, 389. -/
  | deleteHub (j : Job)
  /-- `running.remove` before it looks for the id, 126. -/
  | removeGet (j : Job)
  /-- `running.remove` before it deletes the id, 130-132. -/
  | removeDel (j : Job)
  /-- `completed.add` before it looks for the id, 103. -/
  | completeGet (j : Job)
  /-- `completed.add` before it stores the job, 107-109. -/
  | completeSet (j : Job)
  /-- Answered, with this HTTP status. -/
  | done (status : Nat)
  deriving DecidableEq, Repr

/-- A request being handled by createJobHandler or deleteJobHandler, server.go:324-430. -/
structure Thread (Id : Type) where
  id : Id
  pc : Pc
  deriving DecidableEq, Repr

/-- What has happened, for the statements of properties; the server keeps no such log.
(server.go:324-430) -/
inductive Ev (Id : Type) where
  /-- A create request was answered with 201 and the job started, 381-383. (The answer is taken to be
  sent when the job is stored.) -/
  | created (j : Job) (id : Id)
  /-- A job has left the running list. -/
  | removed (j : Job) (id : Id)
  /-- A delete request was answered with 200. -/
  | deleted (j : Job) (id : Id)
  deriving DecidableEq, Repr

/-- The two lists of jobs, server.go:44-68, and the requests being handled. -/
structure State (Id : Type) where
  running : GoMap Id Job
  completed : GoMap Id Job
  threads : List (Thread Id)
  log : List (Ev Id)
  deriving DecidableEq, Repr

/-- The lists at the start, server.go:61-68. -/
def init : State Id := { running := [], completed := [], threads := [], log := [] }

/-- What can happen: a request comes in, or one that is being handled goes on.
(requests to server.go:806-811) -/
inductive Action (Id : Type) where
  /-- A create request: the id in the query if there is one, the random id, and whether the body is
  well formed, 331-358. The router only matches a namespace that is not empty. -/
  | create (query : Option Id) (uuid : Id) (ok : Bool)
  | delete (id : Id)
  /-- The handler of request `i` takes its next step; `hub` says whether `hub.DeleteTrace` succeeds,
  should that be it. -/
  | step (i : Nat) (hub : Bool)
  deriving DecidableEq, Repr

/-- The state with request `i` at `pc`. (server.go:324-430) -/
def goto (s : State Id) (i : Nat) (t : Thread Id) (pc : Pc) : State Id :=
  { s with threads := s.threads.set i { t with pc := pc } }

/-- One step of request `i`. (server.go:324-430) -/
def advance (s : State Id) (i : Nat) (t : Thread Id) (hub : Bool) : State Id :=
  match t.pc with
  | .createGet => goto s i t (if s.running.has t.id then .done 500 else .createSet)
  | .createSet =>
    { goto s i t (.done 201) with
      running := s.running.set t.id i
      log := s.log ++ [.created i t.id] }
  | .deleteGet =>
    match s.running.get t.id with
    | none => goto s i t (.done 404)
    | some j => goto s i t (.deleteHub j)
  | .deleteHub j => goto s i t (if hub then .removeGet j else .done 500)
  | .removeGet j => goto s i t (if s.running.has t.id then .removeDel j else .done 500)
  | .removeDel j =>
    { goto s i t (.completeGet j) with
      running := s.running.del t.id
      log := match s.running.get t.id with
        | none => s.log
        | some k => s.log ++ [.removed k t.id] }
  | .completeGet j => goto s i t (if s.completed.has t.id then .done 500 else .completeSet j)
  | .completeSet j =>
    { goto s i t (.done 200) with
      completed := s.completed.set t.id j
      log := s.log ++ [.deleted j t.id] }
  | .done _ => s

/-- One action, server.go:324-430. -/
def step (s : State Id) : Action Id → State Id
  | .create q u ok =>
    { s with threads := s.threads ++ [⟨q.getD u, if ok then .createGet else .done 400⟩] }
  | .delete id => { s with threads := s.threads ++ [⟨id, .deleteGet⟩] }
  | .step i hub =>
    match s.threads[i]? with
    | none => s
    | some t => advance s i t hub

/-- Any interleaving of requests, server.go:324-430. -/
def run (s : State Id) (as : List (Action Id)) : State Id := as.foldl step s

end Swoll.Server
