import Verif.Model.Daemon
import Verif.Model.Print
/-
`swoll trace --no-containers`, cmd/trace.go:209-258: the filter it installs, the kernel that runs
the probe on the calls of all threads, and the goroutine that prints what it reads.

A history is a list of `Op`, in any order. The reader (pkg/event/reader/kernel.go:30-52) hands the
samples over one at a time on a channel without a buffer, in the order of the perf buffer, and drops
the notes about lost ones; it is part of the buffer here. The offsets of the kernel structures
are set before (Model/Offsets).
-/
namespace Swoll.Host
open Swoll
open Swoll.Event (Task Mem KEvent TraceEvent)

/-- `FilterSelf`, filter.go:316-331, called by the hub (hub.go:72-74): its body is a comment. -/
def filterSelf (m : Filter.KMaps) : Option Filter.KMaps := some m

/-- The rule of a name, cmd/trace.go:228-231; `none` is the error `NewFilterRuleN` (filter.go:163-169)
ends the program with. -/
def rule (tbl : Syscalls.Syscalls) (name : String) : Option Filter.Rule :=
  Filter.newFilterRule [Filter.setModeSyscall, Filter.setSyscall tbl (.str name), Filter.setActionAllow]

/-- The loop over the names, cmd/trace.go:226-234, on the maps; `none` is the end of the program, for
a name that is not known or an update the kernel refuses. -/
def install (tbl : Syscalls.Syscalls) (refused : String → Filter.Faults) :
    Filter.KMaps → List String → Option Filter.KMaps
  | m, [] => some m
  | m, n :: ns =>
    match rule tbl n with
    | none => none
    | some r =>
      match Filter.addRule m r (refused n) with
      | (_, false) => none
      | (m', true) => install tbl refused m' ns

/-- The names to trace: cmd/trace.go:53-56. -/
def namesOf (given : List String) : List String := if given = [] then ["execve"] else given

/-- The tracer and its probe. (cmd/trace.go:209-258, probe.c:202-249) -/
structure Host where
  probe : Probe.PState
  /-- samples in the perf buffer, oldest first -/
  ring : List (List Bytes.Byte)
  /-- what was printed for each sample read, oldest first -/
  out : List (List Char)

/-- The tracer as it starts to read: cmd/trace.go:209-238 on a freshly loaded probe. -/
def start (tbl : Syscalls.Syscalls) (refused : String → Filter.Faults) (given : List String) : Option Host :=
  (install tbl refused Filter.KMaps.empty (namesOf given)).map
    (fun m => ⟨⟨Filter.enable m, [], []⟩, [], []⟩)

/-- The value of `--output`: anything but the two formats prints nothing, cmd/trace.go:106, 155. -/
inductive Format where
  | cli | json | other
  deriving DecidableEq, Repr

/-- The format a value of `--output` stands for: the switch at cmd/trace.go:105-160. -/
def formatOf (s : String) : Format := if s = "cli" then .cli else if s = "json" then .json else .other

/-- `showMsg`, cmd/trace.go:105-161, with `--no-containers`, for an event of system call `nr`; `json` is
`json.MarshalIndent` and a line end, cmd/trace.go:156-158. -/
def showMsg (fmt : Format) (env : Print.Env) (json : TraceEvent Topology.Container → List Char)
    (nr : Nat) (ev : TraceEvent Topology.Container) : Option (List Char) :=
  match fmt with
  | .cli => Print.cliLine env false nr ev
  | .json => some (json ev)
  | .other => some []

/-- What happens. (cmd/trace.go:248-257, probe.c:2542-2769) -/
inductive Op where
  /-- the raw `sys_enter` tracepoint; `full`: the state map has no room -/
  | enter (t : Task) (id mtime time : BitVec 64) (args : List (BitVec 64)) (full : Bool)
  /-- the raw `sys_exit` tracepoint; `scratch`: the content of the CPU's event buffer, `none` if
  its lookup fails; `lost`: the perf buffer has no room -/
  | exit (t : Task) (id ret mtime time : BitVec 64) (mem : Mem) (scratch : Option KEvent) (lost : Bool)
  /-- the `sys_enter_execve` tracepoint -/
  | execve (t : Task) (time : BitVec 64) (mem : Mem) (filename argv : BitVec 64)
      (scratch : Option KEvent) (lost : Bool)
  /-- the printing goroutine takes the oldest sample -/
  | show (env : Print.Env)

/-- Write a sample to the perf buffer. (probe.c:2727-2728, 2766-2767) -/
def emit (h : Host) (e : KEvent) (lost : Bool) : Host :=
  if lost then h else { h with ring := h.ring ++ [Event.encode e] }

/-- The printing goroutine, cmd/trace.go:248-257; `none` is the end of the program: a message that is
not decoded is fatal, and a call without a decoder crashes `Ingest` (trace.go:253). -/
def print (tbl : Syscalls.Syscalls) (fmt : Format) (json : TraceEvent Topology.Container → List Char)
    (env : Print.Env) (bs : List Bytes.Byte) : Option (List Char) :=
  match Event.ingestBytes bs, Event.ingest tbl none (.kernelEvent bs) with
  | some r, .ok ev => showMsg fmt env json r.syscall.toNat ev
  | _, _ => none

/-- One operation. (cmd/trace.go:248-257, probe.c:2542-2769) -/
def step (tbl : Syscalls.Syscalls) (fmt : Format) (json : TraceEvent Topology.Container → List Char)
    (h : Host) : Op → Option Host
  | .enter t id mtime time args full =>
    some { h with probe := Probe.enter h.probe (Daemon.ctxOf t id mtime time) args full }
  | .exit t id ret mtime time mem scratch lost =>
    let r := Probe.exit Daemon.hasFiller h.probe (Daemon.ctxOf t id mtime time) ret scratch.isSome
    let h1 := { h with probe := r.1 }
    match r.2, scratch with
    | some e, some s => some (emit h1 (Event.onExit s t (Daemon.callOf e ret mem)) lost)
    | _, _ => some h1
  | .execve t time mem filename argv scratch lost =>
    let r := Probe.execve h.probe (Daemon.ctxOf t 59 0 time) scratch.isSome
    let h1 := { h with probe := r.1 }
    match r.2, scratch with
    | some _, some s => some (emit h1 (Event.onExecve s t mem filename argv time) lost)
    | _, _ => some h1
  | .show env =>
    match h.ring with
    | [] => some h
    | bs :: rest => (print tbl fmt json env bs).map (fun l => { h with ring := rest, out := h.out ++ [l] })

/-- A history. (cmd/trace.go:240-279) -/
def run (tbl : Syscalls.Syscalls) (fmt : Format) (json : TraceEvent Topology.Container → List Char) :
    Host → List Op → Option Host
  | h, [] => some h
  | h, o :: os =>
    match step tbl fmt json h o with
    | none => none
    | some h1 => run tbl fmt json h1 os

end Swoll.Host
