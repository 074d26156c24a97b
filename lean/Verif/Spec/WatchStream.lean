import Verif.Spec.Watch
import Verif.Spec.EventText
import Verif.Spec.EventRead
import Verif.Spec.EventJSON
import Verif.Spec.Linux
import Verif.Model.EventText
/-
What a person at the terminal is to see of the calls that were traced at a server.
-/
namespace Swoll.Spec.WatchStream
open Swoll Swoll.Bytes Swoll.Event Swoll.Spec.Event Swoll.Spec.Print Swoll.Spec.Watch
open Swoll.Spec.EventJSON (Utf8)

/-- A call that was traced: the task, the call, the container the server knew for the task's namespace of processes, the
event the probe wrote into (whatever it held), bytes after the event in the buffer, and the server's memory beside it. -/
structure Traced where
  task : Task
  call : Call
  lookup : Option (Int → Option Topology.Container)
  scratch : KEvent
  extra : List Byte
  memory : EventText.Memory

/-- The container of the task. -/
def Traced.container (x : Traced) : Option Topology.Container := x.lookup.bind fun f => f x.task.pidNs.toNat

/-- How much of a message is left for the container: 1850 bytes, but 740 for mount and 390 for execve. -/
def room (n : Nat) : Nat := if n = nr.sys_execve then 390 else if n = nr.sys_mount then 740 else 1850

/-- A call of an ordinary process: structures of the right size, a result of Linux, a container whose description is not
too long for a message. getcwd is left out (C68), and so are mprotect of more than 256 bytes and negative sizes (C37). -/
structure Ordinary (x : Traced) : Prop where
  scratch : x.scratch.WF
  comm : x.task.comm.length = 16
  decodable : x.call.nr.toNat ∈ Spec.Event.decodable
  getcwd : x.call.nr.toNat ≠ nr.sys_getcwd
  result : -4095 ≤ x.call.ret.toInt ∧ x.call.ret.toInt < 2 ^ 31
  sizes : x.call.nr.toNat ∈ [nr.sys_read, nr.sys_write, nr.sys_readlink] → 0 ≤ (x.call.args 2).toInt
  size : x.call.nr.toNat = nr.sys_readlinkat → 0 ≤ (x.call.args 3).toInt
  length : x.call.nr.toNat = nr.sys_mprotect → (x.call.args 1).toInt ≤ 256
  container : ∀ c, x.container = some c →
    EventText.Described (room x.call.nr.toNat) c ∧ ((c.labels.getD []).map (·.1)).Nodup

/-- The call is about an option of IPv6 that has a name, which clients refuse (C70). -/
def Refused (x : Traced) : Prop :=
  x.call.nr.toNat ∈ [nr.sys_setsockopt, nr.sys_getsockopt] ∧ ((x.call.args 1).setWidth 32).toInt = 41 ∧
  ((x.call.args 2).setWidth 32).toInt ∈ Flags.ip6OpMasks.map (·.1)

instance (x : Traced) : Decidable (Refused x) := inferInstanceAs (Decidable (_ ∧ _ ∧ _))

/-- The arguments a client has are those of the call, but for the fields that events misreport (C36) and for nanosleep;
of some kinds of arguments only part is kept on the way (C70). -/
def ArgumentsOf (x : Traced) (argv : List (String × Val)) : Prop :=
  x.call.nr.toNat ≠ nr.sys_nanosleep → ∀ f m, meaning x.call.nr.toNat f = some m →
    (x.call.nr.toNat, f) ∉ mismatches → Sane x.call m →
    ∃ v v', Means x.call m v ∧ argv.lookup f = some v' ∧
      EventJSON.Kept (EventJSON.specials.lookup (x.call.nr.toNat, f)) v v'

/-- A line for a call: the container, the command, the system call by the name Linux has for its number, the arguments,
the error, and the session. -/
def LineFor (x : Traced) (args line : List Char) : Prop :=
  ∃ comm shownComm name err,
    line = styled "1" (containerName (x.container.map fun k => (k.name, k.pod, k.ns)) ++ [':']) ++ " [".toList ++
      styled "4" shownComm ++ "] ".toList ++ "sys_".toList ++ name.toList ++ ['('] ++ args ++ ") err=".toList ++
      verdict (errorOf x.call.ret.toInt == 0) err ++ " ses=".toList ++ decimal x.task.sid.toInt ++ ['\n'] ∧
    (x.call.nr.toNat, name) ∈ Spec.Linux.syscalls ∧ BeforeNul x.task.comm comm ∧
    (Utf8 comm → shownComm = comm.map fun b => Char.ofNat b.toNat) ∧
    ErrorText (errorOf x.call.ret.toInt) err

end Swoll.Spec.WatchStream
