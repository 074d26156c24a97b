import Verif.Model.Event
import Verif.Model.Topology
/-
What it means that a client has the same event as the server, and which messages a client may be sent.
-/
namespace Swoll.Spec.EventRead
open Swoll.Event

/-- A container as Go has it: its numbers fit an `int`, and no two labels have the same key. -/
structure Carried (c : Topology.Container) : Prop where
  pid : -2 ^ 63 ≤ c.pid ∧ c.pid < 2 ^ 63
  pidns : -2 ^ 63 ≤ c.pidns ∧ c.pidns < 2 ^ 63
  labels : ((c.labels.getD []).map (·.1)).Nodup

/-- The same container: every string and number, and every label. -/
structure SameContainer (c c' : Topology.Container) : Prop where
  id : c'.id = c.id
  pod : c'.pod = c.pod
  sandbox : c'.sandbox = c.sandbox
  name : c'.name = c.name
  image : c'.image = c.image
  ns : c'.ns = c.ns
  pid : c'.pid = c.pid
  pidns : c'.pidns = c.pidns
  labels : ∀ k, GoMap.get (c'.labels.getD []) k = GoMap.get (c.labels.getD []) k

/-- The same container, or none. -/
def SameOptional : Option Topology.Container → Option Topology.Container → Prop
  | none, none => True
  | some c, some c' => SameContainer c c'
  | _, _ => False

/-- The same event: all members are equal but the container, which is the same. -/
def SameEvent (ev ev' : TraceEvent Topology.Container) : Prop :=
  ev' = { ev with container := ev'.container } ∧ SameOptional ev.container ev'.container

/-- The members of an event, as the JSON of events names them. -/
def memberNames : List String := ["syscall", "pid", "tid", "container_pid", "uid", "gid", "comm", "session", "container",
  "error", "return", "pid_ns", "uts_ns", "mount_ns", "start", "finish", "args"]

end Swoll.Spec.EventRead
