import Verif.Model.Host
/-
The example programs that use the kernel's filter themselves: examples/basic-trace/main.go and
examples/kubernetes-basic/main.go. (examples/kubernetes-hub/main.go is a client of the hub: Model/Daemon.)

What they print of an event is the event here; the text is that of `swoll trace` but for colours. The offsets of the kernel
structures are found before (Model/Offsets).
-/
namespace Swoll.Examples
open Swoll
open Swoll.Event (Task Mem KEvent TraceEvent)

/-- The names kubernetes-basic asks for, examples/kubernetes-basic/main.go:36-39. -/
def names : List String := ["execve", "openat", "accept4", "connect"]

/-- One `AddSyscall` after the other, with errors ignored, examples/kubernetes-basic/main.go:36-39. -/
def addAll (tbl : Syscalls.Syscalls) (refused : String → Filter.Faults) : Filter.KMaps → List String → Filter.KMaps
  | m, [] => m
  | m, n :: ns => addAll tbl refused (Filter.addSyscall tbl m (.str n) (-1) (refused n)).1 ns

/-- The filter of basic-trace: `WithDefaultFilter`, examples/basic-trace/main.go:29, probe.go:119-129, on freshly loaded maps. -/
def basicTrace : Filter.KMaps := (Filter.filterSelf Filter.KMaps.empty).1

/-- The filter of kubernetes-basic, examples/kubernetes-basic/main.go:33-39. -/
def kubernetesBasic (tbl : Syscalls.Syscalls) (refused : String → Filter.Faults) : Filter.KMaps :=
  addAll tbl refused (Filter.filterSelf Filter.KMaps.empty).1 names

/-- A program, and its probe. (examples/basic-trace/main.go:33-44, examples/kubernetes-basic/main.go:48-66) -/
structure Prog where
  probe : Probe.PState
  /-- samples in the perf buffer, oldest first -/
  ring : List (List Bytes.Byte)
  /-- the events printed, oldest first -/
  out : List (TraceEvent Topology.Container)

/-- As `Run` begins. (examples/basic-trace/main.go:35, examples/kubernetes-basic/main.go:57) -/
def start (m : Filter.KMaps) : Prog := ⟨⟨m, [], []⟩, [], []⟩

/-- What happens. (probe.go:192-212, probe.c:2542-2769) -/
inductive Op where
  /-- the raw `sys_enter` tracepoint; `full`: the state map has no room -/
  | enter (t : Task) (id mtime time : BitVec 64) (args : List (BitVec 64)) (full : Bool)
  /-- the raw `sys_exit` tracepoint; `scratch`: the content of the CPU's event buffer, `none` if its lookup fails; `lost`: the
  perf buffer has no room -/
  | exit (t : Task) (id ret mtime time : BitVec 64) (mem : Mem) (scratch : Option KEvent) (lost : Bool)
  /-- the `sys_enter_execve` tracepoint -/
  | execve (t : Task) (time : BitVec 64) (mem : Mem) (filename argv : BitVec 64) (scratch : Option KEvent) (lost : Bool)
  /-- the callback is given the oldest sample; the containers known by then, `none` for basic-trace -/
  | sample (lookup : Option (Int → Option Topology.Container))
  /-- the callback is told of lost samples -/
  | lost (lookup : Option (Int → Option Topology.Container))

/-- Write a sample to the perf buffer. (probe.c:2727-2728, 2766-2767) -/
def emit (p : Prog) (e : KEvent) (lost : Bool) : Prog := if lost then p else { p with ring := p.ring ++ [Event.encode e] }

/-- The callback: examples/basic-trace/main.go:35-44, examples/kubernetes-basic/main.go:57-66; `none` is a crash. -/
def callback (tbl : Syscalls.Syscalls) (lookup : Option (Int → Option Topology.Container)) (msg : List Bytes.Byte) (p : Prog) : Option Prog :=
  match Event.ingest tbl lookup (.bytes msg) with
  | .ok ev => some { p with out := p.out ++ [ev] }
  | .err => some p
  | .panic => none

/-- One operation. (probe.go:192-212, probe.c:2542-2769) -/
def step (tbl : Syscalls.Syscalls) (p : Prog) : Op → Option Prog
  | .enter t id mtime time args full =>
    some { p with probe := Probe.enter p.probe (Daemon.ctxOf t id mtime time) args full }
  | .exit t id ret mtime time mem scratch lost =>
    let r := Probe.exit Daemon.hasFiller p.probe (Daemon.ctxOf t id mtime time) ret scratch.isSome
    let p1 := { p with probe := r.1 }
    match r.2, scratch with
    | some e, some s => some (emit p1 (Event.onExit s t (Daemon.callOf e ret mem)) lost)
    | _, _ => some p1
  | .execve t time mem filename argv scratch lost =>
    let r := Probe.execve p.probe (Daemon.ctxOf t 59 0 time) scratch.isSome
    let p1 := { p with probe := r.1 }
    match r.2, scratch with
    | some _, some s => some (emit p1 (Event.onExecve s t mem filename argv time) lost)
    | _, _ => some p1
  | .sample lookup =>
    match p.ring with
    | [] => some p
    | bs :: rest => callback tbl lookup bs { p with ring := rest }
  | .lost lookup => callback tbl lookup [] p

/-- A history. (probe.go:192-212) -/
def run (tbl : Syscalls.Syscalls) : Prog → List Op → Option Prog
  | p, [] => some p
  | p, o :: os =>
    match step tbl p o with
    | none => none
    | some p => run tbl p os

end Swoll.Examples
