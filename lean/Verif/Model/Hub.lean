import Verif.Model.Filter
/-
Model of pkg/topology/hub.go (job indexes, DeleteTrace, event routing) and
pkg/topology/job.go (Run callbacks, WriteEvent, monitored hosts).

Every section run under the hub's lock is one atomic operation.  Calls on the kernel filter
made by a job's goroutine without that lock are separate operations, so a list of `Op` is an
arbitrary interleaving of the jobs' goroutines, deletions, events and kernel activity.
-/
namespace Swoll.Hub
open Swoll Swoll.Syscalls Swoll.Filter

/-- What the hub reads of a `*Job` (job.go:21-25): the pointer itself, `Status.JobID` and
`Spec.SampleRate`.  The counter `sampled` is kept in the hub state (`Hub.sampled`), keyed by
the pointer. -/
structure Job where
  ref : Nat
  id : String
  rate : Int
  deriving DecidableEq, Repr

/-- `JobContext`, job.go:42-50.  `cid` stands for the identity of its two list elements
`nselem` and `idelem`. -/
structure Ctx where
  cid : Nat
  job : Job
  ns : Int
  nr : Int
  deriving DecidableEq, Repr

/-- `Hub`, hub.go:35-51: the two indexes (their lists are `container/list` lists of
contexts), the sample counter of every job, and the kernel filter maps. -/
structure Hub where
  nsmap : GoMap Int (GoMap Int (List Ctx))
  idmap : GoMap String (List Ctx)
  sampled : Nat → Int
  maps : KMaps
  /-- next fresh list element identity -/
  next : Nat

/-- The indexes as made by `NewHub`, hub.go:56-100. -/
def Hub.init (m : KMaps) : Hub := ⟨[], [], fun _ => 0, m, 0⟩

/-- `NewHub`, hub.go:56-100: what it does to the filter maps (the stub syscall filter and the
31337 metrics filter, hub.go:70-93).  Errors of the three calls are returned by the code;
here they cannot fail. -/
def newHubMaps (tbl : Syscalls) (m : KMaps) : KMaps :=
  let m1 := (filterSelf m).1
  let m2 := (addSyscall tbl m1 (.str "sys_set_tid_address") 0).1
  let m3 := (addMetrics m2 31337).1
  enable m3

/-- `findJobList`, hub.go:332-338; `none` is nil. -/
def findJobList (h : Hub) (ns nr : Int) : Option (List Ctx) :=
  match GoMap.get h.nsmap ns with
  | some tbl => GoMap.get tbl nr
  | none => none

/-- `clearJobList`, hub.go:340-344. -/
def clearJobList (m : GoMap Int (GoMap Int (List Ctx))) (ns nr : Int) :
    GoMap Int (GoMap Int (List Ctx)) :=
  match GoMap.get m ns with
  | some tbl => GoMap.set m ns (GoMap.del tbl nr)
  | none => m

/-- `findJobListByID`, hub.go:346-348. -/
def findJobListByID (h : Hub) (id : String) : Option (List Ctx) := GoMap.get h.idmap id

/-- Store list `l` (a pointer in Go) for (ns, nr). (hub.go:361-388) -/
def putList (m : GoMap Int (GoMap Int (List Ctx))) (ns nr : Int) (l : List Ctx) :
    GoMap Int (GoMap Int (List Ctx)) :=
  GoMap.set m ns (GoMap.set ((GoMap.get m ns).getD []) nr l)

/-- `PushJob`, hub.go:361-388. -/
def pushJob (h : Hub) (j : Job) (ns nr : Int) : Hub :=
  let c : Ctx := ⟨h.next, j, ns, nr⟩
  let l := (findJobList h ns nr).getD []
  let il := (GoMap.get h.idmap j.id).getD []
  { h with
    nsmap := putList h.nsmap ns nr (l ++ [c])
    idmap := GoMap.set h.idmap j.id (il ++ [c])
    next := h.next + 1 }

/-- `list.Remove` of the element of context `c`. (Used at hub.go:133-176.) -/
def removeElem (l : List Ctx) (c : Ctx) : List Ctx := l.filter (fun x => x.cid ≠ c.cid)

/-- One round of the loop of `DeleteTrace` for the deleted job id `id`, hub.go:133-176.
The completion time stamp is left out. -/
def deleteOne (tbl : Syscalls) (id : String) (h : Hub) (c : Ctx) : Hub :=
  match findJobList h c.ns c.nr with
  | none => h
  | some jns =>
    let l := removeElem jns c
    let h1 := { h with nsmap := putList h.nsmap c.ns c.nr l }
    let h2 := if l.length = 0 then
        { h1 with maps := (removeSyscall tbl h1.maps (.int c.nr) c.ns).1,
                  nsmap := clearJobList h1.nsmap c.ns c.nr }
      else h1
    let h3 := { h2 with idmap := GoMap.set h2.idmap id (removeElem ((GoMap.get h2.idmap id).getD []) c) }
    if ((GoMap.get h3.nsmap c.ns).getD []).length = 0 then
      { h3 with nsmap := GoMap.del h3.nsmap c.ns }
    else h3

/-- Outcomes of `DeleteTrace`. (hub.go:122-186) -/
inductive DelRes where
  | notFound
  | fatal
  | done (h : Hub)

/-- `DeleteTrace`, hub.go:122-186.  The loop removes only the element it stands on after
having taken its successor, so it visits the elements present at its start. -/
def deleteTrace (tbl : Syscalls) (h : Hub) (id : String) : DelRes :=
  match findJobListByID h id with
  | none => .notFound
  | some l =>
    let h1 := l.foldl (deleteOne tbl id) h
    if ((GoMap.get h1.idmap id).getD []).length ≠ 0 then .fatal
    else .done { h1 with idmap := GoMap.del h1.idmap id }

/-- The scan of `findLowestSampleJob`, hub.go:398-404. -/
def lowestFrom (min : Ctx) : List Ctx → Ctx
  | [] => min
  | c :: cs => lowestFrom (if c.job.rate < min.job.rate then c else min) cs

/-- `findLowestSampleJob`, hub.go:390-407.  The outer `none` is the nil dereference on an
empty list (hub.go:396), `some none` the nil result. -/
def findLowestSampleJob (h : Hub) (ns nr : Int) : Option (Option Ctx) :=
  match findJobList h ns nr with
  | none => some none
  | some [] => none
  | some (c :: cs) => some (some (lowestFrom c (c :: cs)))

/-- A publication: on the namespace path of the event, or on the path of a job id.
(hub.go:190-194, job.go:232) -/
inductive Out where
  | nsStream
  | jobStream (id : String)
  deriving DecidableEq, Repr

/-- `(*Job).WriteEvent`, job.go:200-247, for context `c` and an event of (ns, nr); `none` is a
panic.  The counter is a Go `int`; its overflow is not modelled. -/
def writeEvent (h : Hub) (c : Ctx) (ns nr : Int) : Option (Hub × List Out) :=
  if c.job.rate > 0 then
    let n := h.sampled c.job.ref + 1
    let h1 := { h with sampled := fun r => if r = c.job.ref then n else h.sampled r }
    match findLowestSampleJob h1 ns nr with
    | none => none
    | some none => none
    | some (some m) =>
      if m.job.ref = c.job.ref then
        some (h1, if n.tmod c.job.rate = 0 then [.jobStream c.job.id] else [])
      else
        let subsample := c.job.rate - m.job.rate
        if subsample = 0 then none
        else some (h1, if n.tmod subsample = 0 then [.jobStream c.job.id] else [])
  else some (h, [.jobStream c.job.id])

/-- The loop over the contexts of the pair, hub.go:240-243. -/
def writeAll (ns nr : Int) : Hub → List Ctx → Option (Hub × List Out)
  | h, [] => some (h, [])
  | h, c :: cs =>
    match writeEvent h c ns nr with
    | none => none
    | some (h1, o1) =>
      match writeAll ns nr h1 cs with
      | none => none
      | some (h2, o2) => some (h2, o1 ++ o2)

/-- What the event callback of `(*Hub).Run` reads of a decoded event: its pid namespace,
syscall number and whether its container was resolved. (hub.go:216-250) -/
structure Event where
  ns : Int
  nr : Int
  hasContainer : Bool
  deriving DecidableEq, Repr

/-- The probe callback of `(*Hub).Run`, hub.go:216-250, after a successful `Ingest`. -/
def handleEvent (h : Hub) (e : Event) : Option (Hub × List Out) :=
  if e.hasContainer then
    match findJobList h e.ns e.nr with
    | none => some (h, [])
    | some l =>
      match writeAll e.ns e.nr h l with
      | none => none
      | some (h1, o) => some (h1, .nsStream :: o)
  else some (h, [])

/-- Lines 171-176 of job.go: the lookup of the lowest job (with the arguments in the order
written there) and the possible removal of the running rule.  `none` is a panic. -/
def swapSample (tbl : Syscalls) (h : Hub) (rate : Int) (ns nr : Int) : Option Hub :=
  match findLowestSampleJob h nr ns with
  | none => none
  | some none => some h
  | some (some m) =>
    if m.job.rate < rate then some { h with maps := (removeSyscall tbl h.maps (.int nr) ns).1 }
    else some h

/-- Atomic operations on the hub and the kernel filter.
(hub.go:122-186, 216-250, 361-388; job.go:157-190) -/
inductive Op where
  /-- `PushJob` -/
  | push (j : Job) (ns nr : Int)
  /-- job.go:171-176 -/
  | swap (rate : Int) (ns nr : Int)
  /-- any call on the kernel filter, or a kernel evaluation of it -/
  | filter (o : Filter.Op)
  /-- `DeleteTrace` -/
  | delete (id : String)
  /-- an event from the kernel -/
  | event (e : Event)

/-- One operation: new state, "no error", publications; `none` is the end of the process
(panic or `log.Fatalf`). (hub.go:122-186, 216-250, 361-388; job.go:157-190) -/
def step (tbl : Syscalls) (h : Hub) : Op → Option (Hub × Bool × List Out)
  | .push j ns nr => some (pushJob h j ns nr, true, [])
  | .swap rate ns nr => (swapSample tbl h rate ns nr).map (fun h => (h, true, []))
  | .filter o =>
    let r := Filter.step tbl h.maps o
    some ({ h with maps := r.1 }, r.2, [])
  | .delete id =>
    match deleteTrace tbl h id with
    | .notFound => some (h, false, [])
    | .fatal => none
    | .done h1 => some (h1, true, [])
  | .event e => (handleEvent h e).map (fun r => (r.1, true, r.2))

/-- A history of operations. (of hub.go and job.go, each operation under the lock) -/
def run (tbl : Syscalls) : Hub → List Op → Option Hub
  | h, [] => some h
  | h, o :: os =>
    match step tbl h o with
    | none => none
    | some (h1, _, _) => run tbl h1 os

/-- What `Job.Run` reads of a container. (job.go:110-191) -/
structure Container where
  pod : String
  name : String
  pidns : Int
  deriving DecidableEq, Repr

/-- What `Job.Run` reads of the trace: the job, `Spec.HostSelector` and `Spec.Syscalls`.
(job.go:84-105) -/
structure Spec where
  job : Job
  hosts : List String
  calls : List String
  deriving DecidableEq, Repr

/-- `createJobKey`, job.go:58-60. -/
def createJobKey (pod name : String) : String := name ++ "." ++ pod

/-- `AddContainer`, job.go:64-72, on the map `monitoredHosts`. -/
def addContainer (m : GoMap String Bool) (pod name : String) : GoMap String Bool :=
  let key := createJobKey pod name
  if GoMap.has m key then m else GoMap.set m key true

/-- `RemoveContainer`, job.go:75-77. -/
def removeContainer (m : GoMap String Bool) (pod name : String) : GoMap String Bool :=
  GoMap.set m (createJobKey pod name) false

/-- `MonitoredHosts`, job.go:289-301 (map iteration order = list order). -/
def monitoredHosts (m : GoMap String Bool) (all : Bool) : List String :=
  (m.filter (fun e => all || e.2)).map (·.1)

/-- The operations for one syscall of a started container, job.go:157-190, in program order.
`f1`, `f2` say whether the kernel refuses the two filter updates. -/
def callOps (j : Job) (ns : Int) (sc : Syscall) (f1 f2 : Faults) : List Op :=
  .push j ns sc.nr ::
    ((if j.rate > 0 then
        [.swap j.rate ns sc.nr, .filter (.addSampled (.int sc.nr) ns (BitVec.ofInt 64 j.rate) f1)]
      else []) ++ [.filter (.addSyscall (.int sc.nr) ns f2)])

/-- Perform operations until one reports an error (job.go:180, 189 return then); the Boolean
says whether all were performed. -/
def runOps (tbl : Syscalls) : Hub → List Op → Option (Hub × Bool)
  | h, [] => some (h, true)
  | h, o :: os =>
    match step tbl h o with
    | none => none
    | some (h1, ok, _) => if ok then runOps tbl h1 os else some (h1, false)

/-- The loop over the syscalls of the specification, job.go:157-191; `calls` was filled with
`syscalls.Lookup` (job.go:102-105), an unknown name being a nil pointer which is dereferenced.
`faults i` are the refusals for the i-th syscall. -/
def startLoop (tbl : Syscalls) (j : Job) (ns : Int) (faults : Nat → Faults × Faults) :
    Nat → Hub → List (Option Syscall) → Option Hub
  | _, h, [] => some h
  | _, _, none :: _ => none
  | i, h, some sc :: cs =>
    match runOps tbl h (callOps j ns sc (faults i).1 (faults i).2) with
    | none => none
    | some (h1, ok) => if ok then startLoop tbl j ns faults (i + 1) h1 cs else some h1

/-- Does the host selector accept the container name?  job.go:132-150. -/
def hostMatch (s : Spec) (name : String) : Bool :=
  if s.hosts.length > 0 then s.hosts.any (fun h => h == name) else true

/-- The callback of `Job.Run` for a started container, job.go:128-191, on the hub and the
job's `monitoredHosts`, not interleaved with anything else. -/
def jobStart (tbl : Syscalls) (s : Spec) (faults : Nat → Faults × Faults) (c : Container)
    (st : Hub × GoMap String Bool) : Option (Hub × GoMap String Bool) :=
  if hostMatch s c.name then
    match startLoop tbl s.job c.pidns faults 0 st.1 (s.calls.map (fun n => lookup tbl (.str n))) with
    | none => none
    | some h => some (h, addContainer st.2 c.pod c.name)
  else some st

/-- The loop of the stop case, job.go:117-127; errors are only logged. -/
def stopLoop (tbl : Syscalls) (ns : Int) : Hub → List (Option Syscall) → Option Hub
  | h, [] => some h
  | _, none :: _ => none
  | h, some sc :: cs =>
    stopLoop tbl ns { h with maps := (removeSyscall tbl h.maps (.int sc.nr) ns).1 } cs

/-- The callback of `Job.Run` for a stopped container, job.go:110-127. -/
def jobStop (tbl : Syscalls) (s : Spec) (c : Container) (st : Hub × GoMap String Bool) :
    Option (Hub × GoMap String Bool) :=
  match stopLoop tbl c.pidns st.1 (s.calls.map (fun n => lookup tbl (.str n))) with
  | none => none
  | some h => some (h, removeContainer st.2 c.pod c.name)

end Swoll.Hub
