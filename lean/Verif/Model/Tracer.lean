import Verif.Model.Service
import Verif.Model.Host
/-
`swoll trace` with containers, cmd/trace.go:165-208: a hub with one job of its own, the goroutine that
follows the containers for the job, and the callback that prints what the job is handed.

A history is a list of `Op`, in any order; the parts are those of Model/Daemon.lean and of the jobs of
Model/Service.lean. The callback runs in the goroutine of the hub that publishes the event (hub.go:236-243,
pubsub.go), so what it prints belongs to that step.

Simplifications: errors of the observer, of `Run` and of `RunTrace`, which end the program
(cmd/trace.go:193-203), do not happen; what is printed by other goroutines is left out.
-/
namespace Swoll.Tracer
open Swoll
open Swoll.Event (TraceEvent)
open Swoll.Host (Format)

/-- The program. (cmd/trace.go:165-208) -/
structure Tracer where
  daemon : Daemon.Daemon
  /-- the goroutine of `RunTrace`, cmd/trace.go:199-203 -/
  proc : Service.Proc
  /-- has the main goroutine attached the callback? -/
  attached : Bool
  /-- what was printed for each event handed to the callback, oldest first -/
  out : List (List Char)
  /-- what the daemon has gone through, for the statements of properties; there is no such log -/
  log : List Daemon.Op

/-- The trace the arguments describe, cmd/trace.go:53-56, 82-97: no sampling, no hosts; `id` is the random
job id. Whether the names are known is not checked. -/
def spec (id : String) (given : List String) : Hub.Spec := ⟨⟨0, id, 0⟩, [], Host.namesOf given⟩

/-- The program before its goroutines run, cmd/trace.go:165-191. -/
def start (tbl : Syscalls.Syscalls) (id : String) (given : List String) : Tracer :=
  ⟨Daemon.fresh tbl, ⟨spec id given, [], []⟩, false, [], []⟩

/-- `showMsg`, cmd/trace.go:105-161, with containers; `json` is `json.MarshalIndent` and a line end,
cmd/trace.go:156-158. `none` is a panic. -/
def showMsg (fmt : Format) (env : Print.Env) (json : TraceEvent Topology.Container → List Char)
    (ev : TraceEvent Topology.Container) : Option (List Char) :=
  match fmt with
  | .cli =>
    match ev.syscall with
    | none => none
    | some sc => Print.cliLine env true sc.nr ev
  | .json => some (json ev)
  | .other => some []

/-- What happens. (cmd/trace.go:186-207) -/
inductive Op where
  /-- something that neither the job nor the main goroutine does: calls, containers, events; `env` is for what
  the callback prints -/
  | outside (o : Daemon.Op) (env : Print.Env)
  /-- the observer of the job has something to say, topology.go:83-100 -/
  | notice (ev : Option Topology.Event)
  /-- the callback of the job makes its next call, job.go:108-193 -/
  | work (f : Filter.Faults)
  /-- `AttachTrace` by the main goroutine, cmd/trace.go:205 -/
  | attach (draw : Int)

/-- Let the daemon do something. (hub.go:102-452) -/
def perform (tbl : Syscalls.Syscalls) (crc : String → BitVec 64) (srt : List PubSub.Env → List PubSub.Env)
    (t : Tracer) (o : Daemon.Op) : Option (Tracer × List Daemon.Delivery) :=
  (Daemon.step tbl crc srt t.daemon o).map (fun r => ({ t with daemon := r.1, log := t.log ++ [o] }, r.2))

/-- One operation, without the printing, and the events it hands to the callback; `none` is the end of the
program. (cmd/trace.go:186-207, job.go:81-197) -/
def move (tbl : Syscalls.Syscalls) (crc : String → BitVec 64) (srt : List PubSub.Env → List PubSub.Env)
    (t : Tracer) : Op → Option (Tracer × List Daemon.Delivery)
  | .outside o _ => if Service.isOutside o then perform tbl crc srt t o else some (t, [])
  | .notice ev =>
    match t.proc.todo with
    | _ :: _ => some (t, [])
    | [] =>
      let r := Topology.processEvent true t.proc.cache ev
      some ({ t with proc := ⟨t.proc.spec, r.1, r.2.1.flatMap (Service.acts tbl t.proc.spec)⟩ }, [])
  | .work f =>
    match t.proc.todo with
    | [] => some (t, [])
    | a :: rest =>
      match Service.actOp t.proc.spec.job f a with
      | none => none
      | some o =>
        let on := Service.goesOn tbl t.daemon.hub.maps t.proc.spec.job f a
        (perform tbl crc srt t o).map
          (fun r => ({ r.1 with proc := { t.proc with todo := if on then rest else [] } }, r.2))
  | .attach draw =>
    if t.attached then some (t, [])
    else (perform tbl crc srt t (.attachTrace t.proc.spec.job.id draw)).map
      (fun r => ({ r.1 with attached := true }, r.2))

/-- What the callback prints for the events it is handed, one after the other; `none` if it panics.
(cmd/trace.go:105-161, 205) -/
def lines (fmt : Format) (env : Print.Env) (json : TraceEvent Topology.Container → List Char) :
    List Daemon.Delivery → Option (List (List Char))
  | [] => some []
  | d :: ds =>
    match showMsg fmt env json d.2 with
    | none => none
    | some l => (lines fmt env json ds).map (l :: ·)

/-- One operation and what it prints: only the hub's goroutine hands out events, and the only subscription is
the callback's. (cmd/trace.go:186-207) -/
def step (tbl : Syscalls.Syscalls) (crc : String → BitVec 64) (srt : List PubSub.Env → List PubSub.Env)
    (fmt : Format) (json : TraceEvent Topology.Container → List Char) (t : Tracer) (op : Op) : Option Tracer :=
  match move tbl crc srt t op with
  | none => none
  | some (t1, ds) =>
    match op with
    | .outside _ env => (lines fmt env json ds).map (fun ls => { t1 with out := t1.out ++ ls })
    | _ => some t1

/-- A history. (cmd/trace.go:186-207, 278) -/
def run (tbl : Syscalls.Syscalls) (crc : String → BitVec 64) (srt : List PubSub.Env → List PubSub.Env)
    (fmt : Format) (json : TraceEvent Topology.Container → List Char) : Tracer → List Op → Option Tracer
  | t, [] => some t
  | t, o :: os =>
    match step tbl crc srt fmt json t o with
    | none => none
    | some t1 => run tbl crc srt fmt json t1 os

end Swoll.Tracer
