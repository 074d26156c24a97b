/-
Goroutines, locks and shared tables.

Each function that takes a lock or touches a table shared between goroutines is a `Prog`: the
locks it takes and releases and the tables it reads and writes, in program order, with its
branches and loops.  What is computed is left out (the other models have it); calls into the kernel
(BPF maps), the network and the log are left out unless they are in the list of tables.  A goroutine
runs one `Prog`.  Goroutines started later are goroutines that have not been scheduled yet.
-/
namespace Swoll.Sync

/-- The locks. -/
inductive Lock where
  /-- hub.go:50 -/
  | hub
  /-- pubsub.go:36 -/
  | ps
  /-- topology.go:55; 0 is the hub's topology, the others belong to jobs -/
  | topo (i : Nat)
  /-- server.go:46, 62 -/
  | running
  /-- server.go:46, 66 -/
  | completed
  /-- queue.go:32 -/
  | alerts
  /-- server.go:472 -/
  | clouds
  /-- handler.go:13 -/
  | metrics (i : Nat)
  /-- top.go:23 -/
  | top
  deriving DecidableEq, Repr

/-- The tables shared between goroutines. -/
inductive Var where
  /-- `nsmap`, `idmap` and the lists in them, hub.go:36-39 -/
  | jobs
  /-- the subscriptions, pubsub.go:28 and node.go -/
  | tree
  /-- `cache`, topology.go:57 -/
  | cache (i : Nat)
  /-- `jobs` of `running`, server.go:45 -/
  | runningJobs
  /-- `jobs` of `completed`, server.go:45 -/
  | completedJobs
  /-- `queue`, queue.go:33 -/
  | queue
  /-- the three maps at server.go:474-476 -/
  | clouds
  /-- `aggMetrics`, top.go:64 -/
  | rows
  /-- `monitoredHosts` of a job, job.go:24 -/
  | hosts (j : Nat)
  /-- `Status` of a job, by the embedded trace, job.go:22 -/
  | status (j : Nat)
  /-- the writing side of a websocket connection; the library forbids two writers at a time -/
  | conn (k : Nat)
  /-- the answer to a request -/
  | reply (k : Nat)
  deriving DecidableEq, Repr

/-- What a goroutine does next. (sync.Mutex, sync.RWMutex) -/
inductive Act where
  | lock (l : Lock)
  | unlock (l : Lock)
  | rlock (l : Lock)
  | runlock (l : Lock)
  | read (v : Var)
  | write (v : Var)
  deriving DecidableEq, Repr

/-- Functions, as far as locks and shared tables go. -/
inductive Prog where
  | skip
  | act (a : Act)
  | seq (p q : Prog)
  /-- a branch -/
  | alt (p q : Prog)
  /-- a loop -/
  | many (p : Prog)
  /-- one of a family, for example any connection -/
  | any (f : Nat → Prog)

infixr:60 " ;; " => Prog.seq

/-- The sequences of actions a function may go through. -/
inductive Runs : Prog → List Act → Prop where
  | skip : Runs .skip []
  | act (a : Act) : Runs (.act a) [a]
  | seq {p q xs ys} : Runs p xs → Runs q ys → Runs (.seq p q) (xs ++ ys)
  | left {p q xs} : Runs p xs → Runs (.alt p q) xs
  | right {p q xs} : Runs q xs → Runs (.alt p q) xs
  | stop {p} : Runs (.many p) []
  | more {p xs ys} : Runs p xs → Runs (.many p) ys → Runs (.many p) (xs ++ ys)
  | any {f xs} (i : Nat) : Runs (f i) xs → Runs (.any f) xs

/-! ### Goroutines -/

/-- The state of a lock, as of sync.RWMutex (a sync.Mutex is one nobody locks for reading).  A writer
first announces itself, which keeps new readers out, and has the lock once the readers have left. -/
structure LState where
  /-- the goroutine that announced itself or has the lock -/
  writer : Option Nat := none
  /-- it has the lock -/
  held : Bool := false
  /-- the goroutines that have the lock for reading -/
  readers : List Nat := []
  deriving DecidableEq, Repr

/-- All goroutines, by what they have still to do, and all locks. -/
structure Cfg where
  todo : List (List Act)
  locks : Lock → LState

/-- Goroutines before they start. -/
def start (todo : List (List Act)) : Cfg := ⟨todo, fun _ => {}⟩

/-- Goroutine `i` is done with its next action. -/
def Cfg.advance (c : Cfg) (i : Nat) (rest : List Act) : Cfg := { c with todo := c.todo.set i rest }

/-- Change the state of a lock. -/
def Cfg.put (c : Cfg) (l : Lock) (s : LState) : Cfg := { c with locks := fun x => if x = l then s else c.locks x }

/-- Goroutine `i` goes one step. (sync/rwmutex.go, sync/mutex.go) -/
inductive Step : Cfg → Nat → Cfg → Prop where
  | read {c i v rest} : c.todo[i]? = some (.read v :: rest) → Step c i (c.advance i rest)
  | write {c i v rest} : c.todo[i]? = some (.write v :: rest) → Step c i (c.advance i rest)
  | announce {c i l rest} : c.todo[i]? = some (.lock l :: rest) → (c.locks l).writer = none →
      Step c i (c.put l ⟨some i, false, (c.locks l).readers⟩)
  | lock {c i l rest} : c.todo[i]? = some (.lock l :: rest) → (c.locks l).writer = some i →
      (c.locks l).held = false → (c.locks l).readers = [] →
      Step c i ((c.put l ⟨some i, true, []⟩).advance i rest)
  | unlock {c i l rest} : c.todo[i]? = some (.unlock l :: rest) → (c.locks l).writer = some i →
      (c.locks l).held = true →
      Step c i ((c.put l ⟨none, false, (c.locks l).readers⟩).advance i rest)
  | rlock {c i l rest} : c.todo[i]? = some (.rlock l :: rest) → (c.locks l).writer = none →
      Step c i ((c.put l ⟨none, false, i :: (c.locks l).readers⟩).advance i rest)
  | runlock {c i l rest} : c.todo[i]? = some (.runlock l :: rest) → i ∈ (c.locks l).readers →
      Step c i ((c.put l { c.locks l with readers := (c.locks l).readers.erase i }).advance i rest)

/-- A schedule: who goes next, step after step. -/
inductive Steps : Cfg → List Nat → Cfg → Prop where
  | done {c} : Steps c [] c
  | step {c c1 c2 i is} : Step c i c1 → Steps c1 is c2 → Steps c (i :: is) c2

/-! ### The functions -/

open Prog Act

/-- `s.mu.RLock() … s.mu.RUnlock()` and the like around a body. -/
def reading (l : Lock) (p : Prog) : Prog := .act (.rlock l) ;; p ;; .act (.runlock l)

/-- `h.Lock() … h.Unlock()` around a body. -/
def locking (l : Lock) (p : Prog) : Prog := .act (.lock l) ;; p ;; .act (.unlock l)

/-- An `if` without `else`. -/
def opt (p : Prog) : Prog := .alt p .skip

/-- `Publish`, pubsub.go:280-322; `cb` is what a subscription does. -/
def publish (cb : Prog) : Prog := reading .ps (.act (.read .tree) ;; .many (.alt cb (.act (.read .tree))))

/-- `Subscribe`, pubsub.go:149-162. -/
def subscribe : Prog := locking .ps (.act (.write .tree))

/-- The function `Subscribe` returns, pubsub.go:164-184. -/
def unsubscribe : Prog := locking .ps (.act (.write .tree))

/-- `LookupContainer`, topology.go:102-112. -/
def lookupContainer (i : Nat) : Prog := reading (.topo i) (.act (.read (.cache i)))

/-- `processEvent` with its caller's lock, topology.go:89-95, 114-148: a rejected event, or the
cache update and then the callback without the lock. -/
def processEvent (i : Nat) (cb : Prog) : Prog :=
  locking (.topo i) (opt (.act (.write (.cache i)) ;; .act (.unlock (.topo i)) ;; cb ;; .act (.lock (.topo i))))

/-- `(*Topology).Run`, topology.go:83-100. -/
def topologyRun (i : Nat) (cb : Prog) : Prog := .many (processEvent i cb)

/-- `PushJob`, hub.go:361-388. -/
def pushJob : Prog := locking .hub (.act (.read .jobs) ;; .act (.write .jobs))

/-- `DeleteTrace`, hub.go:122-186. -/
def deleteTrace (j : Nat) : Prog :=
  locking .hub (.act (.read .jobs) ;;
    opt (.many (.act (.read .jobs) ;; opt (.act (.write .jobs) ;; .act (.write (.status j)))) ;; .act (.write .jobs)))

/-- `(*Job).WriteEvent`, job.go:200-247, called with the hub's lock. -/
def jobWriteEvent (cb : Prog) : Prog := opt (.act (.read .jobs)) ;; opt (publish cb)

/-- The event callback of `(*Hub).Run`, hub.go:216-249. -/
def eventCallback (cb : Prog) : Prog :=
  opt (lookupContainer 0) ;;
  opt (locking .hub (.act (.read .jobs) ;;
    opt (publish cb ;; .many (.act (.read .jobs) ;; jobWriteEvent cb))))

/-- `PruneNamespace` and `QueryAll`, handler.go:23-84: the table is the kernel's. -/
def metricsCall (i : Nat) : Prog := locking (.metrics i) .skip

/-- The topology callback of `(*Hub).Run`, hub.go:262-289. -/
def metricsCallback : Prog := opt (metricsCall 0)

/-- The statistics loop of `(*Hub).Run`, hub.go:300-316. -/
def statsLoop : Prog := .many (metricsCall 0)

/-- What a job does for each syscall of a started container, job.go:158-190: `sampled`: it has a
sample rate and looks the lowest job up (job.go:171), without a lock. -/
def jobSyscall (sampled : Bool) : Prog := pushJob ;; if sampled then .act (.read .jobs) else .skip

/-- The topology callback of a job, job.go:108-193, with `AddContainer` and `RemoveContainer`
(job.go:64-77). -/
def jobCallback (j : Nat) (sampled : Bool) : Prog :=
  .alt (.act (.write (.hosts j)))
    (opt (.act (.read (.hosts j)) ;; opt (.act (.write (.hosts j))) ;; .many (jobSyscall sampled)))

/-- `(*Job).Run`, job.go:83-197: the start time, then its topology goroutine. -/
def jobRun (j : Nat) (sampled : Bool) : Prog :=
  .act (.write (.status j)) ;; topologyRun (j + 1) (jobCallback j sampled)

/-- `liveJobs.get`, server.go:114-123. -/
def getLive (l : Lock) (v : Var) : Prog := reading l (.act (.read v))

/-- `liveJobs.add` and `liveJobs.remove`, server.go:102-112, 125-135. -/
def changeLive (l : Lock) (v : Var) : Prog := getLive l v ;; opt (locking l (.act (.write v)))

/-- Encoding a job, server.go:91-100 and the fields of `Trace`; the hosts only through a pointer. -/
def encodeJob (j : Nat) : Prog := .act (.read (.hosts j)) ;; .act (.read (.status j))

/-- `GET /jobs`, server.go:291-304: the answer is sent with the locks (successHandler,
server.go:152-169). -/
def getJobs (k : Nat) : Prog :=
  reading .running (reading .completed
    (.act (.read .runningJobs) ;; .many (.any encodeJob) ;; .act (.read .completedJobs) ;; .many (.any encodeJob) ;;
      .act (.write (.reply k))))

/-- `POST /jobs/namespaces/{ns}`, server.go:329-385; the job itself is `jobRun`. -/
def createJob (j : Nat) : Prog := changeLive .running .runningJobs ;; opt (.act (.read (.status j)))

/-- `DELETE /jobs/{id}`, server.go:387-424. -/
def deleteJob (j : Nat) : Prog :=
  getLive .running .runningJobs ;;
  opt (deleteTrace j ;; opt (changeLive .running .runningJobs ;; opt (changeLive .completed .completedJobs)))

/-- `jobWriter`, server.go:204-234, after the lookup at server.go:312. -/
def jobWriter (k : Nat) : Prog :=
  getLive .running .runningJobs ;; opt (subscribe ;; .many (.act (.write (.conn k))) ;; unsubscribe)

/-- `traceWriter`, server.go:239-270: it never unsubscribes. -/
def traceWriter (k : Nat) : Prog := subscribe ;; .many (.act (.write (.conn k)))

/-- What a subscription of the server does, server.go:208-216, 247-257: write to its connection. -/
def toClient : Prog := .any (fun k => .act (.write (.conn k)))

/-- `updateMetrics`, server.go:551-558, with the lookups at server.go:506-522. -/
def updateClouds : Prog := metricsCall 1 ;; locking .clouds (.many (opt (lookupContainer 0) ;; .act (.write .clouds)))

/-- The word clouds are drawn without the lock, server.go:560-579. -/
def drawClouds : Prog := .act (.read .clouds)

/-- `sankey` (server.go:692-716) and `Collect` (prometheus.go:51-94). -/
def readMetrics : Prog := metricsCall 1 ;; .many (lookupContainer 0)

/-- `Push` of the alert queue, queue.go:60-140; `cb` is the callback given, called with the lock. -/
def pushAlert (cb : Prog) : Prog := locking .alerts (.act (.read .queue) ;; opt (.act (.write .queue)) ;; .many cb)

/-- `lookupOrCreate`, top.go:301-317. -/
def lookupOrCreate : Prog := locking .top (.act (.read .rows) ;; opt (.act (.write .rows)))

/-- `makeSortable`, top.go:129-158. -/
def makeSortable : Prog := reading .top (.act (.read .rows))

/-- `(*aggWidget).update`, top.go:199-263, run by a goroutine of its own (top.go:168-174): it has the lock
for reading when it calls `makeSortable`. -/
def updateTable : Prog := reading .top makeSortable

/-- The main loop of `swoll top`, top.go:483-506. -/
def topLoop : Prog := .many (metricsCall 1 ;; .many (lookupContainer 0 ;; opt lookupOrCreate))

/-- The goroutines of a server whose jobs have no sample rate; every request has its own. -/
inductive Server : Prog → Prop where
  | events : Server (.many (eventCallback toClient))
  | containers : Server (topologyRun 0 metricsCallback)
  | stats : Server statsLoop
  | job (j : Nat) : Server (jobRun j false)
  | list (k : Nat) : Server (getJobs k)
  | create (j : Nat) : Server (createJob j)
  | delete (j : Nat) : Server (deleteJob j)
  | watchJob (k : Nat) : Server (jobWriter k)
  | watchPath (k : Nat) : Server (traceWriter k)
  | update : Server updateClouds
  | draw : Server drawClouds
  | collect : Server readMetrics

/-- The goroutines of any server. -/
inductive AnyServer : Prog → Prop where
  | server {p} : Server p → AnyServer p
  | job (j : Nat) : AnyServer (jobRun j true)

end Swoll.Sync
