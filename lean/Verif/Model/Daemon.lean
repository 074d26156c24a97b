import Verif.Model.Hub
import Verif.Model.Probe
import Verif.Model.Event
import Verif.Model.Topology
import Verif.Model.Hash
/-
The running daemon: the parts modelled elsewhere put together as `NewHub` and `(*Hub).Run`
(pkg/topology/hub.go:56-324) do.  The kernel runs the probe on the calls of all threads, the
samples it writes wait in the perf buffer, the hub's event callback takes them one at a time
and publishes them, the topology goroutine follows the containers and switches their metrics,
the goroutines of the jobs register themselves, and users attach and detach.

A history is a list of `Op`, in any order.  What is done under one lock, or by one run of a BPF
program, is one operation; the event callback is two (decoding, which looks the container up,
and routing under the hub's lock), and the topology callback is one per call it makes.  The
topology goroutine waits for its callback before it takes the next event; here it need not, so
there are more histories than the code has.
-/
namespace Swoll.Daemon
open Swoll
open Swoll.Event (Task Mem KEvent TraceEvent)

/-- What the topology callback of `(*Hub).Run` has still to do, hub.go:262-289. -/
inductive Act where
  /-- hub.go:268 -/
  | addMetrics (ns : Int)
  /-- hub.go:276 -/
  | removeMetrics (ns : Int)
  /-- hub.go:280 -/
  | prune (ns : Int)
  deriving DecidableEq, Repr

/-- The daemon and its probe. (hub.go:35-51, 200-292; probe.c:202-249) -/
structure Daemon where
  /-- job indexes and kernel filter maps -/
  hub : Hub.Hub
  /-- `swoll_metrics`, probe.c:216-223 -/
  metrics : GoMap Probe.MKey Probe.MVal
  /-- `swoll_state_map`, probe.c:242-249 -/
  state : GoMap (BitVec 64) Probe.EvKey
  /-- samples in the perf buffer, oldest first -/
  ring : List (List Bytes.Byte)
  /-- the decoded event the event callback is working on (`msg`, hub.go:207) -/
  msg : Option (TraceEvent Topology.Container)
  /-- the container cache, topology.go:54-58 -/
  cache : Topology.Cache
  /-- what is left of the running topology callback -/
  todo : List Act
  /-- `ps`, hub.go:38 -/
  ps : PubSub.PS

/-- After `NewHub`, hub.go:56-100, on a freshly loaded probe. -/
def fresh (tbl : Syscalls.Syscalls) : Daemon :=
  ⟨Hub.Hub.init (Hub.newHubMaps tbl Filter.KMaps.empty), [], [], [], none, [], [], PubSub.PS.new⟩

/-- The probe's part of the state. (probe.c:202-249) -/
def Daemon.probe (d : Daemon) : Probe.PState := ⟨d.hub.maps, d.metrics, d.state⟩

/-- Put a new probe state in place. (probe.c:202-249) -/
def Daemon.withProbe (d : Daemon) (s : Probe.PState) : Daemon :=
  { d with hub := { d.hub with maps := s.maps }, metrics := s.metrics, state := s.state }

/-- What the tracepoint handlers read of the current task. (probe.c:1357-1392, 2542-2607) -/
def ctxOf (t : Task) (id mtime time : BitVec 64) : Probe.Ctx :=
  ⟨Event.pack t.tgid t.pid, Event.pack t.gid t.uid, t.pidNs, id, mtime, time⟩

/-- Does the switch at probe.c:2632-2725 have a case for the syscall? -/
def hasFiller (nr : BitVec 32) : Bool := (Event.fillers.lookup nr.toNat).isSome

/-- The call an event of the exit handler stands for (probe.c:2605-2630): registers, owner and
entry time from the record made at entry, the rest from the exit. -/
def callOf (e : Probe.Event) (ret : BitVec 64) (mem : Mem) : Event.Call :=
  { nr := e.syscall, args := fun i => e.args.getD i 0, uid := e.uidGid.setWidth 32,
    gid := (e.uidGid >>> 32).setWidth 32, start := e.entr, ret := ret, mem := mem, finish := e.exit }

/-- What happens. (hub.go:102-324, 361-388, 436-452; job.go:110-191; probe.c:2542-2769) -/
inductive Op where
  /-- the raw `sys_enter` tracepoint; `full`: the state map has no room -/
  | enter (t : Task) (id mtime time : BitVec 64) (args : List (BitVec 64)) (full : Bool)
  /-- the raw `sys_exit` tracepoint; `scratch`: the content of the CPU's event buffer, `none` if
  its lookup fails; `lost`: the perf buffer has no room -/
  | exit (t : Task) (id ret mtime time : BitVec 64) (mem : Mem) (scratch : Option KEvent) (lost : Bool)
  /-- the `sys_enter_execve` tracepoint -/
  | execve (t : Task) (time : BitVec 64) (mem : Mem) (filename argv : BitVec 64)
      (scratch : Option KEvent) (lost : Bool)
  /-- `PushJob` by a job's goroutine -/
  | push (j : Hub.Job) (ns nr : Int)
  /-- job.go:171-176 -/
  | swap (rate ns nr : Int)
  /-- `AddSyscall` by a job's goroutine, job.go:189 -/
  | addSyscall (k : Syscalls.Key) (ns : Int) (f : Filter.Faults)
  /-- `AddSampledSyscall` by a job's goroutine, job.go:178 -/
  | addSampled (k : Syscalls.Key) (ns : Int) (rate : BitVec 64) (f : Filter.Faults)
  /-- `RemoveSyscall` by a job's goroutine, job.go:122 -/
  | removeSyscall (k : Syscalls.Key) (ns : Int)
  /-- `DeleteTrace`, hub.go:122-186 -/
  | delete (id : String)
  /-- the topology goroutine receives an event from the observer, topology.go:83-148 -/
  | topo (ev : Option Topology.Event)
  /-- the topology callback makes its next call -/
  | act (f : Filter.Faults)
  /-- `AttachPath`, hub.go:436-444, and the random number drawn -/
  | attachPath (paths : List String) (draw : Int)
  /-- `AttachTrace`, hub.go:447-452 -/
  | attachTrace (id : String) (draw : Int)
  /-- calling the `h`-th unsubscriber returned so far -/
  | detach (h : Nat)
  /-- the event callback takes the oldest sample and decodes it, hub.go:219-230 -/
  | ingest
  /-- the event callback publishes the decoded event, hub.go:232-249; `o i` are the choices of
  the i-th `Publish` -/
  | route (o : Nat → PubSub.Oracle)

/-- The calls the topology callback makes, hub.go:262-289. -/
def acts (c : Topology.Call) : List Act :=
  if c.type = Topology.typeStart then [.addMetrics c.container.pidns]
  else if c.type = Topology.typeStop then [.removeMetrics c.container.pidns, .prune c.container.pidns]
  else []

/-- One call of the topology callback; errors are only logged (hub.go:269, 277, 282). -/
def doAct (f : Filter.Faults) (d : Daemon) : Act → Daemon
  | .addMetrics ns => { d with hub := { d.hub with maps := (Filter.addMetrics d.hub.maps ns f).1 } }
  | .removeMetrics ns => { d with hub := { d.hub with maps := (Filter.removeMetrics d.hub.maps ns).1 } }
  | .prune ns =>
    match Probe.pruneNamespace d.metrics ns (d.metrics.length + 1) with
    | some r => { d with metrics := r.1 }
    | none => d

/-- The path a publication goes to. (hub.go:190-194, job.go:232-246) -/
def outPath (crc : String → BitVec 64) (c : Topology.Container) (sc : Syscalls.Syscall) :
    Hub.Out → List PubSub.Key
  | .nsStream => Hash.eventPath crc ⟨c.ns, c.pod, c.name, sc.name⟩
  | .jobStream id => Hash.tracePath crc id

/-- A delivery: which subscription is handed which event. (hub.go:441, 450) -/
abbrev Delivery := Nat × TraceEvent Topology.Container

/-- The publications of one event, in order. (hub.go:236-243) -/
def publishAll (crc : String → BitVec 64) (o : Nat → PubSub.Oracle) (ps : PubSub.PS)
    (ev : TraceEvent Topology.Container) (c : Topology.Container) (sc : Syscalls.Syscall)
    (outs : List Hub.Out) : List Delivery :=
  outs.zipIdx.flatMap (fun p =>
    (PubSub.publish none (o p.2) ps ev (PubSub.linear (outPath crc c sc p.1))).map (fun t => (t, ev)))

/-- Write a sample to the perf buffer. (probe.c:2727-2728, 2766-2767) -/
def emit (d : Daemon) (e : KEvent) (lost : Bool) : Daemon :=
  if lost then d else { d with ring := d.ring ++ [Event.encode e] }

/-- Keep the hub of a successful filter call. (job.go:117-190) -/
def withMaps (d : Daemon) (m : Filter.KMaps) : Daemon := { d with hub := { d.hub with maps := m } }

/-- One operation and the deliveries it causes; `none` is the end of the process.
(hub.go:102-324, 361-388, 436-452; job.go:110-191; probe.c:2542-2769) -/
def step (tbl : Syscalls.Syscalls) (crc : String → BitVec 64) (srt : List PubSub.Env → List PubSub.Env)
    (d : Daemon) : Op → Option (Daemon × List Delivery)
  | .enter t id mtime time args full =>
    some (d.withProbe (Probe.enter d.probe (ctxOf t id mtime time) args full), [])
  | .exit t id ret mtime time mem scratch lost =>
    let r := Probe.exit hasFiller d.probe (ctxOf t id mtime time) ret scratch.isSome
    let d1 := d.withProbe r.1
    match r.2, scratch with
    | some e, some s => some (emit d1 (Event.onExit s t (callOf e ret mem)) lost, [])
    | _, _ => some (d1, [])
  | .execve t time mem filename argv scratch lost =>
    let r := Probe.execve d.probe (ctxOf t 59 0 time) scratch.isSome
    let d1 := d.withProbe r.1
    match r.2, scratch with
    | some _, some s => some (emit d1 (Event.onExecve s t mem filename argv time) lost, [])
    | _, _ => some (d1, [])
  | .push j ns nr => some ({ d with hub := Hub.pushJob d.hub j ns nr }, [])
  | .swap rate ns nr => (Hub.swapSample tbl d.hub rate ns nr).map (fun h => ({ d with hub := h }, []))
  | .addSyscall k ns f => some (withMaps d (Filter.addSyscall tbl d.hub.maps k ns f).1, [])
  | .addSampled k ns rate f => some (withMaps d (Filter.addSampledSyscall tbl d.hub.maps k ns rate f).1, [])
  | .removeSyscall k ns => some (withMaps d (Filter.removeSyscall tbl d.hub.maps k ns).1, [])
  | .delete id =>
    match Hub.deleteTrace tbl d.hub id with
    | .notFound => some (d, [])
    | .fatal => none
    | .done h => some ({ d with hub := h }, [])
  | .topo ev =>
    let r := Topology.processEvent true d.cache ev
    some ({ d with cache := r.1, todo := d.todo ++ r.2.1.flatMap acts }, [])
  | .act f =>
    match d.todo with
    | [] => some (d, [])
    | a :: rest => some ({ doAct f d a with todo := rest }, [])
  | .attachPath paths draw =>
    (PubSub.step srt d.ps (.subscribe (Hash.attachPath crc paths) "" "" draw)).map
      (fun ps => ({ d with ps := ps }, []))
  | .attachTrace id draw =>
    (PubSub.step srt d.ps (.subscribe (Hash.tracePath crc id) "" "" draw)).map
      (fun ps => ({ d with ps := ps }, []))
  | .detach h => (PubSub.step srt d.ps (.unsubscribe h)).map (fun ps => ({ d with ps := ps }, []))
  | .ingest =>
    match d.msg, d.ring with
    | none, bs :: rest =>
      match Event.ingest tbl (some (fun ns => Topology.lookupContainer d.cache ns)) (.bytes bs) with
      | .err => some ({ d with ring := rest }, [])
      | .panic => none
      | .ok ev => some ({ d with ring := rest, msg := if ev.container.isSome then some ev else none }, [])
    | _, _ => some (d, [])
  | .route o =>
    match d.msg with
    | none => some (d, [])
    | some ev =>
      match ev.container, ev.syscall with
      | none, _ => some ({ d with msg := none }, [])
      | some _, none => none
      | some c, some sc =>
        match Hub.handleEvent d.hub ⟨ev.pidNs, sc.nr, true⟩ with
        | none => none
        | some (h, outs) => some ({ d with msg := none, hub := h }, publishAll crc o d.ps ev c sc outs)

/-- A history. (hub.go:200-324) -/
def run (tbl : Syscalls.Syscalls) (crc : String → BitVec 64) (srt : List PubSub.Env → List PubSub.Env) :
    Daemon → List Op → Option Daemon
  | d, [] => some d
  | d, o :: os =>
    match step tbl crc srt d o with
    | none => none
    | some (d1, _) => run tbl crc srt d1 os

end Swoll.Daemon
