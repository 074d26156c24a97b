import Verif.Model.Service
import Verif.Spec.Daemon
import Verif.Spec.Server
import Verif.Spec.Event
/-
What users of the server expect, in terms of the requests made, the answers given, the containers the jobs
were told about and the websockets opened and closed.
-/
namespace Swoll.Spec.Service
open Swoll Swoll.Service
open Swoll.Spec.Daemon (Target User registrations)

/-- What a client watches, as the daemon sees it. -/
def target : Watch → Target
  | .job id => .job id
  | .path ns pod container => .path [ns, pod, container]

/-- Request `i`, about job `id`, has been answered with this status. -/
def Answered (s : Service) (i : Nat) (id : String) (status : Nat) : Prop :=
  s.server.threads[i]? = some ⟨id, .done status⟩

/-- The number the next request gets. -/
def next (s : Service) : Nat := s.server.threads.length

/-- The job is listed as running. -/
def Listed (s : Service) (id : String) : Prop := ∃ j, s.server.running.get id = some j

/-- Something is registered for the job: "this job wants this syscall of this pid namespace". -/
def Registered (s : Service) (id : String) : Prop := ∃ r ∈ registrations s.log, r.job.id = id

/-- The subscription is in place. -/
def Subscribed (s : Service) (tok : Nat) (w : Watch) : Prop := ⟨tok, target w⟩ ∈ Spec.Daemon.users s.log

/-- The daemon's own part of the operation is as `Spec.Daemon.SaneOp` says. -/
def Sane : Op → Prop
  | .outside o => Spec.Daemon.SaneOp o
  | _ => True

/-- The goroutine `p` follows containers for a job with this id. -/
def Follows (s : Service) (p : Nat) (id : String) : Prop := ∃ pr, s.procs[p]? = some pr ∧ pr.spec.job.id = id

/-- No goroutine of a job with this id is in the middle of handling a container. -/
def Idle (s : Service) (id : String) : Prop := ∀ pr ∈ s.procs, pr.spec.job.id = id → pr.todo = []

/-- The operation asks for a job with this id, or tells a goroutine that follows containers for such a job
in `s` of a started container. -/
def Revives (s : Service) (id : String) : Op → Prop
  | .create query uuid _ _ => query.getD uuid = id
  | .notice p (some ⟨0, some _⟩) => Follows s p id
  | _ => False

/-- The kernel would record this call of this process in this pid namespace now. -/
def Records (tbl : Syscalls.Syscalls) (s : Service) (ns proc nr : BitVec 32) : Prop :=
  (Filter.step tbl s.daemon.hub.maps (.callEvent ns proc nr)).2 = true

/-- In this history no job is taken out of the hub while one of its goroutines is in the middle of handling
a container. -/
def Undisturbed (tbl : Syscalls.Syscalls) (crc : String → BitVec 64) (srt : List PubSub.Env → List PubSub.Env)
    (ops : List Op) : Prop :=
  ∀ before i after x t j, ops = before ++ .handle i :: after → run tbl crc srt (fresh tbl) before = some x →
    x.server.threads[i]? = some t → t.pc = .deleteHub j → Idle x t.id

/-- What the requests ask for, in the order they come in; a DELETE asks for no calls. -/
def requests (ops : List Op) : List Body :=
  ops.filterMap (fun op => match op with
    | .create _ _ _ b => some b
    | .delete _ => some { hosts := [], calls := [], rate := 0 }
    | _ => none)

/-- Every call a request names exists and can be decoded. -/
def Decodable (tbl : Syscalls.Syscalls) (ops : List Op) : Prop :=
  ∀ b ∈ requests ops, ∀ name ∈ b.calls, ∃ sc, Syscalls.lookup tbl (.str name) = some sc ∧ sc.nr ∈ Spec.Event.decodable

/-- Two requests that ask for the same call do not have the same sampling rate. -/
def RatesDiffer (tbl : Syscalls.Syscalls) (ops : List Op) : Prop :=
  ∀ (i j : Nat) b c, (requests ops)[i]? = some b → (requests ops)[j]? = some c → 0 < b.rate → b.rate = c.rate →
    ∀ n ∈ b.calls, ∀ m ∈ c.calls, ∀ x y, Syscalls.lookup tbl (.str n) = some x → Syscalls.lookup tbl (.str m) = some y →
      x.nr = y.nr → i = j

/-- No task is in pid namespace 0. -/
def Placed : Op → Prop
  | .outside o => Spec.Daemon.Placed o
  | _ => True

/-- Pid namespace ids are 32 bit numbers larger than any syscall number, which are below 333 (they are inode
numbers, in practice above 4026531836). -/
def Numbered : Op → Prop
  | .notice _ (some ⟨_, some c⟩) => 0 < c.pidns → 333 ≤ c.pidns ∧ c.pidns < 2 ^ 32
  | _ => True

/-- The goroutine `p` does for the job of request `i`, named `id`, what the body of the request asks for. -/
def Serves (s : Service) (p i : Nat) (id : String) (b : Body) : Prop :=
  ∃ pr, s.procs[p]? = some pr ∧ pr.spec = ⟨⟨i, id, b.rate⟩, b.hosts, b.calls⟩

/-- The goroutine `p` is not in the middle of handling a container. -/
def Rests (s : Service) (p : Nat) : Prop := ∀ pr, s.procs[p]? = some pr → pr.todo = []

/-- The body without its duration. -/
def undatedBody (b : Body) : Body := { b with duration := 0 }

/-- The same operation, a request without its duration. -/
def undated : Op → Op
  | .create q u ok b => .create q u ok (undatedBody b)
  | op => op

end Swoll.Spec.Service
