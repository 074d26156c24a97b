/-
The trace controller, internal/pkg/controller/trace.go, and the part of the Kubernetes API it works
against.

The API server is modelled: optimistic locking by resource version, finalizers, and reads from a
cache that may be behind. One `Trace` object is followed from its creation; the objects of other
traces do not matter to it. Times are nanoseconds.
-/
namespace Swoll.Controller

/-- `TraceState`, api/v1alpha1/trace_types.go:26-34. -/
inductive TraceState where
  | unknown | pending | running | complete
  | other (s : String)
  deriving DecidableEq, Repr

/-- A version of a `Trace` object: resource version, whether its deletion time is set, whether the
controller's finalizer and others are on it, the parts of `Spec` the controller uses and `Status`
(trace_types.go:37-67). -/
structure Trace where
  rv : Nat
  deleting : Bool
  finalizer : Bool
  others : Bool
  duration : Int
  syscalls : List String
  state : TraceState
  jobID : String
  start : Option Int
  completion : Option Int
  deriving DecidableEq, Repr

/-- The API server: the object, all the versions it has had (latest first), the jobs that exist and
the jobs created and deleted by the controller so far.
(what the calls of trace.go:106-223 work on) -/
structure World where
  trace : Option Trace
  seen : List Trace
  jobs : List String
  created : List String
  deleted : List String
  deriving DecidableEq, Repr

/-- One second. (the unit of `metav1.Time`, trace.go:172) -/
def second : Int := 1000000000

/-- `metav1.Time` is written to the API server with a resolution of seconds (RFC 3339).
(stored at trace.go:172, 187-190) -/
def wire (t : Int) : Int := t - t % second

/-- How an API call ends: well, not carried out but with an error, or carried out but with an error
(a lost reply, or the end of the process right after it).
(of the calls at trace.go:113, 131, 148, 162, 179, 190, 212) -/
inductive Fault where
  | ok | lost | late
  deriving DecidableEq, Repr

/-- What others do to the object and its job. (between the calls of trace.go:106-223) -/
inductive Env where
  | delete
  | edit (duration : Int) (syscalls : List String)
  | others (b : Bool)
  | jobGone (name : String)
  deriving DecidableEq, Repr

/-- Store a version; an object being deleted goes away with its last finalizer.
(Library, effect of the updates at trace.go:148, 162, 190, 212.) -/
def store (w : World) (t : Trace) : World :=
  if t.deleting && !t.finalizer && !t.others then { w with trace := none, seen := t :: w.seen }
  else { w with trace := some t, seen := t :: w.seen }

/-- What others do, applied; not code of the project, but what runs beside trace.go:106-223. -/
def env (w : World) (e : Env) : World :=
  match e with
  | .jobGone n => { w with jobs := w.jobs.filter (· != n) }
  | _ => match w.trace with
    | none => w
    | some t => match e with
      | .delete => store w { t with rv := t.rv + 1, deleting := true }
      | .edit d s => store w { t with rv := t.rv + 1, duration := d, syscalls := s }
      | .others b => store w { t with rv := t.rv + 1, others := b }
      | .jobGone _ => w

/-- Any number of them, beside trace.go:106-223. -/
def envs (w : World) (es : List Env) : World := es.foldl env w

/-- `client.Update`: refused if the object is gone or has changed since it was read, or if it would
get a new finalizer while being deleted. On success the new version is returned.
(Library, called at trace.go:148, 162, 190, 212.) -/
def update (w : World) (f : Fault) (t : Trace) : World × Option Trace :=
  match f, w.trace with
  | .lost, _ => (w, none)
  | _, none => (w, none)
  | f, some cur =>
    if cur.rv ≠ t.rv then (w, none)
    else if cur.deleting && t.finalizer && !cur.finalizer then (w, none)
    else
      let t' := { t with rv := cur.rv + 1, start := t.start.map wire,
                         completion := t.completion.map wire }
      (store w t', if f = .late then none else some t')

/-- `client.Create` of a job with a generated name; refused if the name is taken.
(Library, called at trace.go:179.) -/
def create (w : World) (f : Fault) (name : String) : World × Bool :=
  if f = .lost ∨ name ∈ w.jobs then (w, false)
  else ({ w with jobs := name :: w.jobs, created := name :: w.created }, f = .ok)

/-- `client.Delete` of a job, an error if it does not exist. (Library, called at trace.go:131.) -/
def deleteJob (w : World) (f : Fault) (name : String) : World × Bool :=
  if f = .lost ∨ name ∉ w.jobs then (w, false)
  else ({ w with jobs := w.jobs.filter (· != name), deleted := name :: w.deleted }, f = .ok)

/-- What decides how a run of `Reconcile` goes: what others do before each API call, the version the
cache returns (counted from the latest; `none` for an error or nothing found), the faults, the
clock readings of `metav1.Now()` and `time.Now()`, and the end of the generated job name.
(of one run of trace.go:106-223) -/
structure Sched where
  envGet : List Env
  view : Option Nat
  envDelete : List Env
  fDelete : Fault
  envUpdate₁ : List Env
  fUpdate₁ : Fault
  envCreate : List Env
  fCreate : Fault
  suffix : String
  envUpdate : List Env
  fUpdate : Fault
  now : Int
  deriving DecidableEq, Repr

/-- The name the API server makes of `GenerateName`, trace.go:47; the trace's name is in `suffix`. -/
def Sched.name (s : Sched) : String := "sw-" ++ s.suffix

/-- What `Reconcile` returns; `panic` where it dereferences a nil start time.
(of trace.go:106-223) -/
inductive Result where
  | done
  | err
  | requeue (after : Int)
  | panic
  deriving DecidableEq, Repr

/-- The deletion branch, trace.go:119-152: either a return or a go-on with the object. -/
def onDelete (w : World) (s : Sched) (t : Trace) : World × (Result ⊕ Trace) :=
  if t.deleting then
    let finish (w : World) (t : Trace) : World × (Result ⊕ Trace) :=
      match update (envs w s.envUpdate₁) s.fUpdate₁ { t with finalizer := false } with
      | (w, none) => (w, .inl .err)
      | (w, some t) => (w, .inr t)
    if t.jobID ≠ "" then
      match deleteJob (envs w s.envDelete) s.fDelete t.jobID with
      | (w, false) => (w, .inl .done)
      | (w, true) => finish w { t with state := .complete, completion := some s.now }
    else finish w t
  else (w, .inr t)

/-- `createJobResource`, trace.go:38-41: without system calls execve is traced. (The rest of the job
is in Model/JobArgs.) -/
def withSyscalls (t : Trace) : Trace :=
  if t.syscalls = [] then { t with syscalls := ["sys_execve"] } else t

/-- The trace once its job is created, trace.go:185-187. -/
def asRunning (t : Trace) (name : String) (now : Int) : Trace :=
  { t with state := .running, jobID := name, start := some now }

/-- The switch over the state, trace.go:154-221. -/
def onState (w : World) (s : Sched) (t : Trace) : World × Result :=
  let t := { t with finalizer := true }
  match t.state with
  | .unknown =>
    match update (envs w s.envUpdate) s.fUpdate { t with state := .pending } with
    | (w, none) => (w, .err)
    | (w, some _) => (w, .requeue (5 * second))
  | .pending =>
    let t := withSyscalls t
    match create (envs w s.envCreate) s.fCreate s.name with
    | (w, false) => (w, .err)
    | (w, true) =>
      match update (envs w s.envUpdate) s.fUpdate (asRunning t s.name s.now) with
      | (w, none) => (w, .err)
      | (w, some _) => (w, .requeue (t.duration - 5 * second))
  | .running =>
    if t.duration > 0 then
      match t.start with
      | none => (w, .panic)
      | some st =>
        if s.now < st + t.duration then (w, .requeue (5 * second))
        else
          match update (envs w s.envUpdate) s.fUpdate
              { t with state := .complete, completion := some s.now } with
          | (w, none) => (w, .err)
          | (w, some _) => (w, .done)
    else (w, .done)
  | _ => (w, .done)

/-- `Reconcile`, trace.go:106-223. One clock reading serves for the two that can occur in one run;
they are never compared. -/
def reconcile (w : World) (s : Sched) : World × Result :=
  let w := envs w s.envGet
  match s.view with
  | none => (w, .done)
  | some k => match w.seen[k]? with
    | none => (w, .done)
    | some t => match onDelete w s t with
      | (w, .inl r) => (w, r)
      | (w, .inr t) => onState w s t

/-- Any number of runs. (of trace.go:106-223) -/
def run (w : World) (ss : List Sched) : World := ss.foldl (fun w s => (reconcile w s).1) w

/-- A new object, as a user creates it: no status. (api/v1alpha1/trace_types.go:70-80) -/
def fresh (duration : Int) (syscalls : List String) (others : Bool) : Trace :=
  { rv := 0, deleting := false, finalizer := false, others := others, duration := duration
    syscalls := syscalls, state := .unknown, jobID := "", start := none, completion := none }

/-- The API server after its creation. (api/v1alpha1/trace_types.go:70-80) -/
def init (t : Trace) (jobs : List String) : World :=
  { trace := some t, seen := [t], jobs := jobs, created := [], deleted := [] }

end Swoll.Controller
