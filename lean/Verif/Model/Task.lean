import Verif.Model.Offsets
/-
Who made a call: what the probe reads of the kernel's own structures about the process that runs, probe.c:1131-1386.

The memory of the kernel is a table for each kind of structure, from addresses to what is there; the address 0 is NULL
and a read where nothing is fails. Simplifications: the fields whose place in the structure is fixed when the probe is
compiled are fields here, so that the running kernel has the layout the probe was compiled for; the two whose place can
be set (the `nsproxy` of a task, the `ns` of a pid namespace) are words at offsets. Of the two ways to keep numbers
(probe.c:1134-1138, 1261-1265) this is the one of kernels since 5.0. The mount, cgroup and ipc namespaces, which the
probe redeclares (probe.c:151-164), are their inode number.
-/
namespace Swoll.Task
open Swoll

/-- An address in the kernel. -/
abbrev Addr := Nat

/-- `struct upid` of Linux: a number and the namespace it is a number in. (probe.c:1200-1203) -/
structure Upid where
  nr : BitVec 32
  ns : Addr
  deriving DecidableEq, Repr

/-- `struct pid` of Linux: the numbers of a task, one for each level. (probe.c:1157, 1200) -/
structure Pid where
  level : Nat
  numbers : List Upid
  deriving DecidableEq, Repr

/-- `enum pid_type` as far as the probe asks for it, with the extra type of probe.c:25-27. -/
inductive PidType where
  | pid
  | tgidExtra
  | sid
  deriving DecidableEq, Repr

/-- `struct task_struct` of Linux, as far as the probe reads it; `signalSid` is `signal->pids[PIDTYPE_SID]`. `word` is
what is at an offset, `none` if it cannot be read. (probe.c:1135, 1222, 1258, 1308, 1383) -/
structure Tsk where
  threadPid : Addr
  groupLeader : Addr
  signalSid : Addr
  word : BitVec 32 → Option Addr
  nvcsw : BitVec 64
  nivcsw : BitVec 64

/-- `struct nsproxy` of Linux. (probe.c:1332-1336) -/
structure NsProxy where
  uts : Addr
  mnt : Addr
  ipc : Addr
  cgr : Addr
  pidForChildren : Addr
  deriving DecidableEq, Repr

/-- `struct pid_namespace` of Linux: its level and the inode number found when `struct ns_common` is read at an offset.
(probe.c:1198, 1321) -/
structure PidNs where
  level : Nat
  inumAt : BitVec 32 → Option (BitVec 32)

/-- The memory of the kernel. -/
structure Mem where
  task : Addr → Option Tsk
  pid : Addr → Option Pid
  nsproxy : Addr → Option NsProxy
  pidns : Addr → Option PidNs
  inum : Addr → Option (BitVec 32)

/-- `_(P)`: a value that cannot be read is zero. (probe.c:35-41) -/
def rd {α β : Type} (x : Option α) (f : α → β) (zero : β) : β :=
  match x with
  | some a => f a
  | none => zero

/-- `swoll__task_pid`, probe.c:1131-1139. -/
def taskPid (m : Mem) (t : Addr) : Addr := rd (m.task t) (·.threadPid) 0

/-- The element of `numbers` at a level, zero beyond them. (probe.c:1157, 1200) -/
def upidAt (p : Pid) (l : Nat) : Upid := (p.numbers[l]?).getD ⟨0, 0⟩

/-- `swoll__ns_of_pid`, probe.c:1151-1161. -/
def nsOfPid (m : Mem) (p : Addr) : Addr :=
  if p ≠ 0 then rd (m.pid p) (fun q => (upidAt q q.level).ns) 0 else 0

/-- `swoll__task_active_pid_ns`, probe.c:1169-1173. -/
def taskActivePidNs (m : Mem) (t : Addr) : Addr := nsOfPid m (taskPid m t)

/-- `swoll__pid_nr_ns`, probe.c:1189-1207. -/
def pidNrNs (m : Mem) (p ns : Addr) : BitVec 32 :=
  let nsLevel := rd (m.pidns ns) (·.level) 0
  if p ≠ 0 ∧ nsLevel ≤ rd (m.pid p) (·.level) 0 then
    let upid := rd (m.pid p) (fun q => upidAt q nsLevel) ⟨0, 0⟩
    if upid.ns = ns then upid.nr else 0
  else 0

/-- `*task_pid_ptr`, probe.c:1219-1223. -/
def taskPidOf (m : Mem) (t : Addr) (type : PidType) : Addr :=
  if type = .pid then rd (m.task t) (·.threadPid) 0 else rd (m.task t) (·.signalSid) 0

/-- `swoll__task_pid_nr_ns`, probe.c:1242-1268. -/
def taskPidNrNs (m : Mem) (t : Addr) (type : PidType) (ns : Addr) : BitVec 32 :=
  let ns := if ns = 0 then taskActivePidNs m t else ns
  if type ≠ .pid then
    let type := if type = .tgidExtra then PidType.pid else type
    let leader := rd (m.task t) (·.groupLeader) 0
    pidNrNs m (taskPidOf m leader type) ns
  else pidNrNs m (taskPidOf m t type) ns

/-- `swoll__task_tgid_vnr`, probe.c:1280-1284. -/
def taskTgidVnr (m : Mem) (t : Addr) : BitVec 32 := taskPidNrNs m t .tgidExtra 0

/-- `swoll__task_session_vnr`, probe.c:1294-1298. -/
def taskSessionVnr (m : Mem) (t : Addr) : BitVec 32 := taskPidNrNs m t .sid 0

/-- `swoll__task_nsproxy`, probe.c:1300-1313; NULL if the word cannot be read. -/
def taskNsproxy (cfg : Offsets.Config) (dfltProxy : BitVec 32) (m : Mem) (t : Addr) : Addr :=
  match m.task t with
  | some k => (k.word (Offsets.nsproxyOffset cfg dfltProxy)).getD 0
  | none => 0

/-- `swoll__get_pid_ns_common`, probe.c:1315-1326: the inode number of what was read, if it could be. -/
def getPidNsCommon (cfg : Offsets.Config) (dfltNs : BitVec 32) (m : Mem) (ns : Addr) : Option (BitVec 32) :=
  match m.pidns ns with
  | some n => n.inumAt (Offsets.pidnsOffset cfg dfltNs)
  | none => none

/-- The part of `struct swoll_event` that says who made the call. (probe.c:118-133) -/
structure Ident where
  nsPid : BitVec 32 := 0
  sessionId : BitVec 32 := 0
  pidNs : BitVec 32 := 0
  utsNs : BitVec 32 := 0
  mntNs : BitVec 32 := 0
  ipcNs : BitVec 32 := 0
  cgrNs : BitVec 32 := 0
  contextSw : BitVec 64 := 0
  deriving DecidableEq, Repr

/-- `swoll__event_fill_namespaces`, probe.c:1328-1355. -/
def fillNamespaces (cfg : Offsets.Config) (dfltProxy dfltNs : BitVec 32) (m : Mem) (t : Addr) (out : Ident) : Ident :=
  let proxy := m.nsproxy (taskNsproxy cfg dfltProxy m t)
  let out := { out with
    utsNs := (m.inum (rd proxy (·.uts) 0)).getD 0
    mntNs := (m.inum (rd proxy (·.mnt) 0)).getD 0
    ipcNs := (m.inum (rd proxy (·.ipc) 0)).getD 0
    cgrNs := (m.inum (rd proxy (·.cgr) 0)).getD 0 }
  match getPidNsCommon cfg dfltNs m (rd proxy (·.pidForChildren) 0) with
  | some i => { out with pidNs := i }
  | none => out

/-- `swoll__task_pid_namespace`, probe.c:1357-1369: the namespace the rules and the counts go by. -/
def taskPidNamespace (cfg : Offsets.Config) (dfltProxy dfltNs : BitVec 32) (m : Mem) (t : Addr) : BitVec 32 :=
  let proxy := m.nsproxy (taskNsproxy cfg dfltProxy m t)
  match getPidNsCommon cfg dfltNs m (rd proxy (·.pidForChildren) 0) with
  | some i => i
  | none => -1

/-- `swoll__event_fill_init`, as far as it says who made the call. The numbers of the thread and of its user come from
helpers of the kernel and are in Model/Event. (probe.c:1371-1386) -/
def fillInit (cfg : Offsets.Config) (dfltProxy dfltNs : BitVec 32) (m : Mem) (t : Addr) : Ident :=
  { fillNamespaces cfg dfltProxy dfltNs m t {} with
    sessionId := taskSessionVnr m t
    nsPid := taskTgidVnr m t
    contextSw := rd (m.task t) (·.nvcsw) 0 + rd (m.task t) (·.nivcsw) 0 }

/-- The event of a call: the namespaces are filled in twice. (probe.c:2619-2620, 2754-2755) -/
def identify (cfg : Offsets.Config) (dfltProxy dfltNs : BitVec 32) (m : Mem) (t : Addr) : Ident :=
  fillNamespaces cfg dfltProxy dfltNs m t (fillInit cfg dfltProxy dfltNs m t)

end Swoll.Task
