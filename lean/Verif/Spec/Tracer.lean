import Verif.Model.Tracer
import Verif.Spec.Service
/-
What somebody who runs `swoll trace` expects, in terms of the names given, the containers the observer spoke
of, and the calls threads made.
-/
namespace Swoll.Spec.Tracer
open Swoll Swoll.Tracer
open Swoll.Event (TraceEvent)

/-- The names to trace: those given, or `execve` if there are none. -/
def names (given : List String) : List String := if given = [] then ["execve"] else given

/-- System call `nr` is one of those to trace. -/
def Named (tbl : Syscalls.Syscalls) (given : List String) (nr : Nat) : Prop :=
  ∃ name ∈ names given, ∃ sc, Syscalls.lookup tbl (.str name) = some sc ∧ sc.nr = nr

/-- The job's observer has spoken of a started container of this pid namespace. -/
def Announced (ops : List Op) (ns : Int) : Prop :=
  ∃ c : Topology.Container, .notice (some ⟨0, some c⟩) ∈ ops ∧ 0 < c.pidns ∧ c.pidns = ns

/-- The daemon's own part of the operation is as `Spec.Daemon.SaneOp` says. -/
def Sane : Op → Prop
  | .outside o _ => Spec.Daemon.SaneOp o
  | _ => True

/-- No task is in pid namespace 0. -/
def Placed : Op → Prop
  | .outside o _ => Spec.Daemon.Placed o
  | _ => True

/-- Pid namespace ids are 32 bit numbers larger than any syscall number. -/
def Numbered : Op → Prop
  | .notice (some ⟨_, some c⟩) => 0 < c.pidns → 333 ≤ c.pidns ∧ c.pidns < 2 ^ 32
  | _ => True

/-- A line that was printed: the call it is about, as a position in what the daemon went through, the event
that reports the call, and what else the text depends on. -/
structure Line where
  call : Nat
  ev : TraceEvent Topology.Container
  env : Print.Env

/-- The pid namespaces of the started containers the observer has spoken of, in order. -/
def announced (ops : List Op) : List Int :=
  ops.filterMap (fun op => match op with
    | .notice (some ⟨0, some c⟩) => if 0 < c.pidns then some c.pidns else none
    | _ => none)

/-- The names given stand for different system calls. -/
def Apart (tbl : Syscalls.Syscalls) (given : List String) : Prop :=
  ((names given).map (fun n => (Syscalls.lookup tbl (.str n)).map (·.nr))).Nodup

/-- Every name given is one of a system call that can be decoded. -/
def Decodable (tbl : Syscalls.Syscalls) (given : List String) : Prop :=
  ∀ name ∈ names given, ∃ sc, Syscalls.lookup tbl (.str name) = some sc ∧ sc.nr ∈ Spec.Event.decodable

end Swoll.Spec.Tracer
