import Verif.Model.Daemon
import Verif.Model.Server
/-
The server put together with the daemon it controls, as `runServer` does (cmd/server.go:727-902): HTTP
requests create and delete jobs, every job has a goroutine with an observer of its own that tells it about
containers, and clients watch jobs or paths over websockets.

A history is a list of `Op`, in any order. What is done under one lock is one operation: the handlers of
requests and the callbacks of the jobs interleave with each other and with all else.

Simplifications: copying the observer (job.go:92-98) does not fail; the host table of a job, which only
serves the listing of jobs, is left out (it is in Model/Hub.lean); an upgrade to a websocket succeeds.
-/
namespace Swoll.Service
open Swoll

/-- A call that the callback of a job has still to make. (job.go:108-193) -/
inductive Act where
  /-- job.go:162 -/
  | push (ns nr : Int)
  /-- job.go:171-176 -/
  | swap (ns nr : Int)
  /-- job.go:178 -/
  | addSampled (ns nr : Int)
  /-- job.go:187 -/
  | addSyscall (ns nr : Int)
  /-- job.go:120 -/
  | removeSyscall (ns nr : Int)
  /-- the use of a nil `*Syscall`, job.go:118, 158 -/
  | crash
  deriving DecidableEq, Repr

/-- The goroutine of a job: what the job asks for, the containers it knows, and what is left of its
running callback. It ends with its context, which is that of the process (server.go:782, 381). (job.go:81-197) -/
structure Proc where
  spec : Hub.Spec
  cache : Topology.Cache
  todo : List Act
  deriving DecidableEq, Repr

/-- What a client watches. (server.go:273-288, 308-326) -/
inductive Watch where
  | job (id : String)
  | path (ns pod container : String)
  deriving DecidableEq, Repr

/-- A websocket: whether and as what it is subscribed, whether the connection is closed, and whether the
writer has returned. (server.go:171-270) -/
structure Session where
  watch : Watch
  tok : Option Nat
  closed : Bool
  over : Bool
  deriving DecidableEq, Repr

/-- What the body of a create request asks for. (server.go:351-358; `TraceSpec`, api/v1alpha1/trace_types.go:37-44) -/
structure Body where
  hosts : List String
  calls : List String
  rate : Int
  /-- how long the job is to run, in nanoseconds; no code of the server reads it -/
  duration : Int := 0
  deriving DecidableEq, Repr

/-- The whole. (server.go:44-68, 749-851) -/
structure Service where
  daemon : Daemon.Daemon
  server : Server.State String
  /-- the bodies of the requests, by number -/
  bodies : List Body
  procs : List Proc
  sessions : List Session
  /-- how many subscriptions have been made -/
  attached : Nat
  /-- what the daemon has gone through, for the statements of properties; there is no such log -/
  log : List Daemon.Op

/-- At the start. (server.go:727-803) -/
def fresh (tbl : Syscalls.Syscalls) : Service :=
  ⟨Daemon.fresh tbl, Server.init, [], [], [], 0, []⟩

/-- What happens. (server.go:171-424; job.go:108-193) -/
inductive Op where
  /-- something in the daemon that neither jobs nor clients do: calls, containers, events -/
  | outside (o : Daemon.Op)
  /-- a create request comes in, server.go:329-358 -/
  | create (query : Option String) (uuid : String) (ok : Bool) (body : Body)
  /-- a delete request comes in, server.go:408-411 -/
  | delete (id : String)
  /-- the handler of request `i` takes its next step -/
  | handle (i : Nat)
  /-- the observer of job goroutine `p` has something to say, topology.go:83-100 -/
  | notice (p : Nat) (ev : Option Topology.Event)
  /-- the callback of job goroutine `p` makes its next call -/
  | work (p : Nat) (f : Filter.Faults)
  /-- a client connects, server.go:273-288, 308-326 -/
  | watch (w : Watch)
  /-- the writer of session `k` subscribes, server.go:207, 246 -/
  | attach (k : Nat) (draw : Int)
  /-- the reader of session `k` finds the client gone, or not answering, and closes the connection,
  server.go:171-199 -/
  | close (k : Nat)
  /-- the writer of session `k` pings the client, server.go:223-234, 258-269 -/
  | ping (k : Nat) (fails : Bool)

/-- Is this an operation of the daemon that neither jobs nor clients make? (hub.go:200-292) -/
def isOutside : Daemon.Op → Bool
  | .enter .. => true
  | .exit .. => true
  | .execve .. => true
  | .topo .. => true
  | .act .. => true
  | .ingest => true
  | .route .. => true
  | _ => false

/-- Let the daemon do something. (hub.go:102-452) -/
def perform (tbl : Syscalls.Syscalls) (crc : String → BitVec 64) (srt : List PubSub.Env → List PubSub.Env)
    (s : Service) (o : Daemon.Op) : Option (Service × List Daemon.Delivery) :=
  (Daemon.step tbl crc srt s.daemon o).map (fun r => ({ s with daemon := r.1, log := s.log ++ [o] }, r.2))

/-- The calls the callback of a job makes for one syscall of a started container, job.go:157-191. -/
def startActs (tbl : Syscalls.Syscalls) (rate ns : Int) (name : String) : List Act :=
  match Syscalls.lookup tbl (.str name) with
  | none => [.crash]
  | some sc => .push ns sc.nr ::
      ((if rate > 0 then [.swap ns sc.nr, .addSampled ns sc.nr] else []) ++ [.addSyscall ns sc.nr])

/-- The calls it makes for one syscall of a stopped container, job.go:117-127. -/
def stopActs (tbl : Syscalls.Syscalls) (ns : Int) (name : String) : List Act :=
  match Syscalls.lookup tbl (.str name) with
  | none => [.crash]
  | some sc => [.removeSyscall ns sc.nr]

/-- The calls the callback of a job makes, job.go:108-193. -/
def acts (tbl : Syscalls.Syscalls) (s : Hub.Spec) (c : Topology.Call) : List Act :=
  if c.type = Topology.typeStop then s.calls.flatMap (stopActs tbl c.container.pidns)
  else if c.type = Topology.typeStart then
    if Hub.hostMatch s c.container.name then s.calls.flatMap (startActs tbl s.job.rate c.container.pidns) else []
  else []

/-- A call of the callback of a job as an operation of the daemon; `none` ends the process. (job.go:117-191) -/
def actOp (j : Hub.Job) (f : Filter.Faults) : Act → Option Daemon.Op
  | .push ns nr => some (.push j ns nr)
  | .swap ns nr => some (.swap j.rate ns nr)
  | .addSampled ns nr => some (.addSampled (.int nr) ns (BitVec.ofInt 64 j.rate) f)
  | .addSyscall ns nr => some (.addSyscall (.int nr) ns f)
  | .removeSyscall ns nr => some (.removeSyscall (.int nr) ns)
  | .crash => none

/-- Does the callback go on after this call? It returns when the kernel refuses a rule, job.go:178-190. -/
def goesOn (tbl : Syscalls.Syscalls) (m : Filter.KMaps) (j : Hub.Job) (f : Filter.Faults) : Act → Bool
  | .addSampled ns nr => (Filter.addSampledSyscall tbl m (.int nr) ns (BitVec.ofInt 64 j.rate) f).2
  | .addSyscall ns nr => (Filter.addSyscall tbl m (.int nr) ns f).2
  | _ => true

/-- The subscription a writer makes. (server.go:207, 246, 282-285) -/
def attachOp (draw : Int) : Watch → Daemon.Op
  | .job id => .attachTrace id draw
  | .path ns pod container => .attachPath [ns, pod, container] draw

/-- The next step of the handler of request `i`, server.go:329-424. What `DeleteTrace` answers is up to the
hub; a created job gets its goroutine. -/
def handle (tbl : Syscalls.Syscalls) (crc : String → BitVec 64) (srt : List PubSub.Env → List PubSub.Env)
    (s : Service) (i : Nat) : Option (Service × List Daemon.Delivery) :=
  match s.server.threads[i]? with
  | none => some (s, [])
  | some t =>
    match t.pc with
    | .deleteHub _ =>
      let found := (Hub.findJobListByID s.daemon.hub t.id).isSome
      (perform tbl crc srt s (.delete t.id)).map
        (fun r => ({ r.1 with server := Server.step s.server (.step i found) }, r.2))
    | .createSet =>
      let b := s.bodies.getD i { hosts := [], calls := [], rate := 0 }
      some ({ s with server := Server.step s.server (.step i true),
                     procs := s.procs ++ [⟨⟨⟨i, t.id, b.rate⟩, b.hosts, b.calls⟩, [], []⟩] }, [])
    | _ => some ({ s with server := Server.step s.server (.step i true) }, [])

/-- One operation and the deliveries it causes; `none` is the end of the process.
(server.go:171-424; job.go:108-193) -/
def step (tbl : Syscalls.Syscalls) (crc : String → BitVec 64) (srt : List PubSub.Env → List PubSub.Env)
    (s : Service) : Op → Option (Service × List Daemon.Delivery)
  | .outside o => if isOutside o then perform tbl crc srt s o else some (s, [])
  | .create q u ok b =>
    some ({ s with server := Server.step s.server (.create q u ok), bodies := s.bodies ++ [b] }, [])
  | .delete id =>
    some ({ s with server := Server.step s.server (.delete id), bodies := s.bodies ++ [{ hosts := [], calls := [], rate := 0 }] }, [])
  | .handle i => handle tbl crc srt s i
  | .notice p ev =>
    match s.procs[p]? with
    | none => some (s, [])
    | some pr =>
      match pr.todo with
      | _ :: _ => some (s, [])
      | [] =>
        let r := Topology.processEvent true pr.cache ev
        some ({ s with procs := s.procs.set p ⟨pr.spec, r.1, r.2.1.flatMap (acts tbl pr.spec)⟩ }, [])
  | .work p f =>
    match s.procs[p]? with
    | none => some (s, [])
    | some pr =>
      match pr.todo with
      | [] => some (s, [])
      | a :: rest =>
        match actOp pr.spec.job f a with
        | none => none
        | some o =>
          let on := goesOn tbl s.daemon.hub.maps pr.spec.job f a
          (perform tbl crc srt s o).map
            (fun r => ({ r.1 with procs := s.procs.set p { pr with todo := if on then rest else [] } }, r.2))
  | .watch w =>
    match w with
    | .job id =>
      if s.server.running.has id then some ({ s with sessions := s.sessions ++ [⟨w, none, false, false⟩] }, [])
      else some (s, [])
    | .path .. => some ({ s with sessions := s.sessions ++ [⟨w, none, false, false⟩] }, [])
  | .attach k draw =>
    match s.sessions[k]? with
    | none => some (s, [])
    | some se =>
      match se.tok with
      | some _ => some (s, [])
      | none =>
        (perform tbl crc srt s (attachOp draw se.watch)).map
          (fun r => ({ r.1 with sessions := s.sessions.set k { se with tok := some s.attached },
                                attached := s.attached + 1 }, r.2))
  | .close k =>
    match s.sessions[k]? with
    | none => some (s, [])
    | some se => some ({ s with sessions := s.sessions.set k { se with closed := true } }, [])
  | .ping k fails =>
    match s.sessions[k]? with
    | none => some (s, [])
    | some se =>
      match se.tok with
      | none => some (s, [])
      | some t =>
        if se.over then some (s, [])
        else if se.closed || fails then
          let s1 := { s with sessions := s.sessions.set k { se with closed := true, over := true } }
          match se.watch with
          | .job _ => perform tbl crc srt s1 (.detach t)
          | .path .. => some (s1, [])
        else some (s, [])

/-- A history. (server.go:727-902) -/
def run (tbl : Syscalls.Syscalls) (crc : String → BitVec 64) (srt : List PubSub.Env → List PubSub.Env) :
    Service → List Op → Option Service
  | s, [] => some s
  | s, o :: os =>
    match step tbl crc srt s o with
    | none => none
    | some (s1, _) => run tbl crc srt s1 os

end Swoll.Service
