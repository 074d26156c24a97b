import Verif.Model.Cluster
import Verif.Model.Service
/-
A node of a cluster: the server of cmd/server.go together with the pods the API server knows, the containers
the runtime of the node lists, the observer of the server (server.go:785-797, hub.go:252-291) and the observer
of every job (job.go:92-108).

What the observers say is no longer free, as it is in Model/Service.lean: it is what their informers make of
the changes of the pods.
-/
namespace Swoll.Site
open Swoll
open Swoll.Cluster (Key Pod Api Watcher Sel)

/-- The whole. (server.go:727-902) -/
structure Site where
  /-- the pods of the cluster -/
  pods : GoMap Key Pod
  /-- what the runtime answers, `none` if it does not, kubernetes.go:242-266 -/
  cri : Option (List Topology.CriContainer)
  /-- the observer of the server -/
  hub : Watcher
  /-- the observers of the goroutines of the jobs, in the order of `Service.procs` -/
  jobs : List Watcher
  /-- namespaces and selectors of the requests, by number, server.go:333, 351-368 -/
  sels : List (String × Sel)
  service : Service.Service
  /-- what the server has gone through, for the statements of properties; there is no such log -/
  log : List Service.Op

/-- At the start: `o` is the observer of the server. (server.go:780-797) -/
def fresh (tbl : Syscalls.Syscalls) (o : Topology.Observer) : Site :=
  ⟨[], some [], Watcher.new o, [], [], Service.fresh tbl, []⟩

/-- What happens. The observer is that of the server, `none`, or of a goroutine of a job.
(server.go:171-424; kubernetes.go:361-451; topology.go:83-100) -/
inductive Op where
  /-- a pod is created, or changes -/
  | put (p : Pod)
  /-- a pod is deleted -/
  | remove (k : Key)
  /-- the containers of the node change -/
  | runtime (l : Option (List Topology.CriContainer))
  /-- an observer loses the API server -/
  | lose (w : Option Nat)
  /-- an observer lists the pods and watches them -/
  | list (w : Option Nat)
  /-- an observer handles a change of a pod -/
  | handle (w : Option Nat) (k : Key)
  /-- a topology takes the next event of its observer -/
  | tell (w : Option Nat)
  /-- a create request for a namespace, server.go:329-358 -/
  | create (ns : String) (sel : Sel) (query : Option String) (uuid : String) (ok : Bool) (body : Service.Body)
  /-- anything else in the server -/
  | service (o : Service.Op)

/-- No selector. (A delete request has none; server.go:408-411.) -/
def noSel : String × Sel := ("", ⟨⟨[], []⟩, ⟨[], []⟩⟩)

/-- The observer of a goroutine, job.go:92-98. Copying an observer does not fail (C65). -/
def observerFor (s : Site) (pr : Service.Proc) : Topology.Observer :=
  let sel := s.sels.getD pr.spec.job.ref noSel
  (Cluster.jobObserver s.hub.obs sel.1 sel.2).getD s.hub.obs

/-- The server does something; goroutines that are new get an observer. (server.go:381; job.go:92-108) -/
def serve (tbl : Syscalls.Syscalls) (crc : String → BitVec 64) (srt : List PubSub.Env → List PubSub.Env)
    (s : Site) (o : Service.Op) : Option (Site × List Daemon.Delivery) :=
  (Service.step tbl crc srt s.service o).map (fun r =>
    ({ s with service := r.1, log := s.log ++ [o],
              jobs := s.jobs ++ (r.1.procs.drop s.jobs.length).map (fun pr => Watcher.new (observerFor s pr)) }, r.2))

/-- Let an observer do something. (kubernetes.go:361-451) -/
def observer (s : Site) (w : Option Nat) (f : Watcher → Option Watcher) : Option Site :=
  match w with
  | none => (f s.hub).map (fun h => { s with hub := h })
  | some p =>
    match s.jobs[p]? with
    | none => some s
    | some x => (f x).map (fun y => { s with jobs := s.jobs.set p y })

/-- A pod changes, and all observers that watch it hear of it. (Library, used by kubernetes.go:372-449.) -/
def change (a : Api) (s : Site) (k : Key) (new : Option Pod) : Site :=
  let old := s.pods.get k
  { s with pods := match new with | some p => s.pods.set k p | none => s.pods.del k,
           hub := s.hub.hears a old new, jobs := s.jobs.map (fun w => w.hears a old new) }

/-- Is this left to the observers, or to `create`? (topology.go:83-100; server.go:329-358) -/
def reserved : Service.Op → Bool
  | .outside (.topo _) => true
  | .notice .. => true
  | .create .. => true
  | _ => false

/-- One operation and the deliveries it causes; `none` is the end of the process.
(server.go:171-424; kubernetes.go:361-451; topology.go:83-100) -/
def step (a : Api) (tbl : Syscalls.Syscalls) (crc : String → BitVec 64) (srt : List PubSub.Env → List PubSub.Env)
    (s : Site) : Op → Option (Site × List Daemon.Delivery)
  | .put p => some (change a s p.key (some p), [])
  | .remove k => some (change a s k none, [])
  | .runtime l => some ({ s with cri := l }, [])
  | .lose w => (observer s w (fun x => some x.lose)).map (·, [])
  | .list w => (observer s w (fun x => some (x.list a s.pods))).map (·, [])
  | .handle w k => (observer s w (fun x => x.handle s.cri k)).map (·, [])
  | .tell none =>
    match s.hub.chan with
    | [] => some (s, [])
    | ev :: rest => serve tbl crc srt { s with hub := { s.hub with chan := rest } } (.outside (.topo (some ev)))
  | .tell (some p) =>
    match s.jobs[p]?, s.service.procs[p]? with
    | some w, some pr =>
      match w.chan, pr.todo with
      | ev :: rest, [] =>
        serve tbl crc srt { s with jobs := s.jobs.set p { w with chan := rest } } (.notice p (some ev))
      | _, _ => some (s, [])
    | _, _ => some (s, [])
  | .create ns sel q u ok b => serve tbl crc srt { s with sels := s.sels ++ [(ns, sel)] } (.create q u ok b)
  | .service o =>
    if reserved o then some (s, [])
    else
      match o with
      | .delete _ => serve tbl crc srt { s with sels := s.sels ++ [noSel] } o
      | _ => serve tbl crc srt s o

/-- A history. (server.go:727-902) -/
def run (a : Api) (tbl : Syscalls.Syscalls) (crc : String → BitVec 64) (srt : List PubSub.Env → List PubSub.Env) :
    Site → List Op → Option Site
  | s, [] => some s
  | s, o :: os =>
    match step a tbl crc srt s o with
    | none => none
    | some (s1, _) => run a tbl crc srt s1 os

end Swoll.Site
