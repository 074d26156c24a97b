/-
The commands of `swoll client` over the endpoints they are given: create (with `--oneshot`), watch,
delete and query, cmd/client.go. The process is a transition system: an action is a step of the main
goroutine, of one of the goroutines it starts, a server's answer or a signal, in any order. Memory is
sequentially consistent. What requests say and which handler they reach is in Model/Client; here a
server is known by a number and is the jobs it runs.
-/
namespace Swoll.ClientCmd

/-- The id of a job, a string compared only for equality. (cmd/client.go:60, 85, 184) -/
abbrev Id := Nat
/-- A server, one for each `host:port`. (cmd/client.go:382-409) -/
abbrev Server := Nat
/-- The jobs each server runs. (cmd/server.go:60-67) -/
abbrev Jobs := Server → List Id

/-- A message on a websocket: an event the client can decode, one it cannot, and one that is longer than
the limit of the connection, endpoint.go:29, 145, 225-229. (A message `null`, which no server sends, is
left out.) -/
inductive Msg where
  | event (ev : Nat)
  | undecodable
  | tooLong
  deriving DecidableEq, Repr

/-! ### Requests -/

/-- The jobs once server `s` has accepted job `id`: `liveJobs.add`, cmd/server.go:101-111. -/
def Jobs.add (jobs : Jobs) (s : Server) (id : Id) : Jobs :=
  fun t => if t = s then id :: jobs t else jobs t

/-- The jobs once server `s` has removed job `id`: `liveJobs.remove`, cmd/server.go:124-133. -/
def Jobs.remove (jobs : Jobs) (s : Server) (id : Id) : Jobs :=
  fun t => if t = s then (jobs t).filter (· != id) else jobs t

/-- What comes of a request to create: the job is created and the client told so; an error, with the job
not created; an error, as when the answer is lost, with the job created. (endpoint.go:112-132) -/
inductive Created where
  | ok | refused | lost
  deriving DecidableEq, Repr

/-- What comes of a request to delete: the job is deleted and the client told so; the server has no such
job (404, cmd/server.go:371-375); an error with the job as it was; an error with the job
deleted. (endpoint.go:249-266) -/
inductive Deleted where
  | ok | absent | failed | lost
  deriving DecidableEq, Repr

/-- Creating at a server: the new jobs and whether the client sees success; `none` is an outcome the
server cannot have. A job that is running already is refused, cmd/server.go:346-349. -/
def post (jobs : Jobs) (s : Server) (id : Id) : Created → Option (Jobs × Bool)
  | .ok => if id ∈ jobs s then none else some (jobs.add s id, true)
  | .refused => some (jobs, false)
  | .lost => if id ∈ jobs s then none else some (jobs.add s id, false)

/-- Deleting at a server, cmd/server.go:368-383 and endpoint.go:249-266. -/
def del (jobs : Jobs) (s : Server) (id : Id) : Deleted → Option (Jobs × Bool)
  | .ok => if id ∈ jobs s then some (jobs.remove s id, true) else none
  | .absent => if id ∈ jobs s then none else some (jobs, false)
  | .failed => some (jobs, false)
  | .lost => if id ∈ jobs s then some (jobs.remove s id, false) else none

/-! ### client create -/

/-- The command: its endpoints, the id of the job (given or made, cmd/client.go:238-242), `--oneshot`, and
whether `--output` is one of the two formats, cmd/client.go:293-333. -/
structure Cmd where
  eps : List Server
  id : Id
  oneshot : Bool
  shows : Bool

/-- Where a goroutine of cmd/client.go:274-284 is: before ReadTraceJob, within it with the messages that
have arrived at its websocket, before DeleteTraceJob, after `wg.Done`. -/
inductive Pc where
  | ready
  | reading (s : Server) (queue : List Msg)
  | deleting
  | finished
  deriving DecidableEq, Repr

/-- Where the main goroutine is: at the head of the loop over the endpoints (cmd/client.go:262), within
CreateTrace (263), in the loop that prints (289-338), at `wg.Wait` (343), or the process has ended
with this code. -/
inductive Phase where
  | head | posting | looping | waiting
  | ended (code : Nat)
  deriving DecidableEq, Repr

/-- The process and the servers. (cmd/client.go:244-343) -/
structure St where
  jobs : Jobs
  phase : Phase
  /-- iterations done -/
  idx : Nat
  /-- the variable `ep` of the loop, one for all iterations (go 1.13) -/
  ep : Server
  cancelled : Bool
  /-- where each goroutine is; each keeps its own `trace`, whose id is the command's (cmd/server.go:308-311,
  331-339) -/
  workers : List Pc
  /-- what was printed: from which server, and which event -/
  printed : List (Server × Nat)

/-- As the loop is about to begin, cmd/client.go:244-260. -/
def start (jobs : Jobs) : St := ⟨jobs, .head, 0, 0, false, [], []⟩

/-- What can happen. (cmd/client.go:252-343) -/
inductive Act where
  /-- SIGINT or SIGTERM -/
  | signal
  /-- the main goroutine goes on from where it is -/
  | next
  /-- the answer to CreateTrace -/
  | created (r : Created)
  /-- goroutine `k` opens its websocket, or fails to -/
  | connect (k : Nat)
  | unconnected (k : Nat)
  /-- a server sends a message to all its websockets for the job -/
  | publish (s : Server) (m : Msg)
  /-- goroutine `k` deals with the oldest message -/
  | read (k : Nat)
  /-- the websocket of goroutine `k` ends -/
  | hangup (k : Nat)
  /-- the answer to DeleteTraceJob of goroutine `k` -/
  | deleted (k : Nat) (r : Deleted)
  deriving DecidableEq, Repr

/-- Has the process ended? (cmd/client.go:265, 345) -/
def Phase.over : Phase → Bool
  | .ended _ => true
  | _ => false

/-- The message joins the queue of a websocket of server `s`, endpoint.go:211. -/
def deliver (s : Server) (m : Msg) : Pc → Pc
  | .reading t queue => .reading t (if t = s then queue ++ [m] else queue)
  | p => p

/-- `CreateTrace` has been answered, cmd/client.go:263-286. A request whose context is cancelled does not
succeed. -/
def createdStep (c : Cmd) (st : St) (r : Created) : Option St :=
  if st.phase ≠ .posting ∨ (st.cancelled ∧ r = .ok) then none
  else match post st.jobs st.ep c.id r with
    | none => none
    | some (jobs, false) => some { st with jobs := jobs, phase := .ended 1 }
    | some (jobs, true) => some { st with
        jobs := jobs, phase := .head, idx := st.idx + 1
        workers := if c.oneshot then st.workers ++ [.ready] else st.workers }

/-- The main goroutine goes on: to the next endpoint (cmd/client.go:262), out of the loop (288), out of the
printing loop once the context is cancelled (335-336), to the end once all goroutines are done
(343). -/
def nextStep (c : Cmd) (st : St) : Option St :=
  match st.phase with
  | .head =>
    match c.eps[st.idx]? with
    | some s => some { st with phase := .posting, ep := s }
    | none => some { st with phase := if c.oneshot then .looping else .waiting }
  | .looping => if st.cancelled then some { st with phase := .waiting } else none
  | .waiting => if st.workers.all (· == .finished) then some { st with phase := .ended 0 } else none
  | _ => none

/-- Goroutine `k` takes the oldest message of its websocket: an event goes to the main goroutine, which
prints it (endpoint.go:231-236, cmd/client.go:292-333); one that cannot be decoded is dropped
(endpoint.go:227-229); one that is too long ends ReadTraceJob (endpoint.go:211-221). -/
def readStep (c : Cmd) (st : St) (k : Nat) : Option St :=
  match st.workers[k]? with
  | some (.reading s (.event ev :: queue)) =>
    if st.phase = .looping then
      some { st with
        workers := st.workers.set k (.reading s queue)
        printed := if c.shows then st.printed ++ [(s, ev)] else st.printed }
    else none
  | some (.reading s (.undecodable :: queue)) =>
    some { st with workers := st.workers.set k (.reading s queue) }
  | some (.reading _ (.tooLong :: _)) => some { st with workers := st.workers.set k .deleting }
  | _ => none

/-- One action; `none` means that it cannot happen. Both calls of a goroutine are made on what `ep` is at
that time, cmd/client.go:275, 279. The second signal is sent on the channel closed at
cmd/client.go:255, which ends the process with a panic. -/
def step (c : Cmd) (st : St) (a : Act) : Option St :=
  if st.phase.over then none
  else match a with
  | .signal => some (if st.cancelled then { st with phase := .ended 2 } else { st with cancelled := true })
  | .next => nextStep c st
  | .created r => createdStep c st r
  | .connect k =>
    if st.workers[k]? = some .ready ∧ st.cancelled = false ∧ c.id ∈ st.jobs st.ep then
      some { st with workers := st.workers.set k (.reading st.ep []) }
    else none
  | .unconnected k =>
    if st.workers[k]? = some .ready then some { st with workers := st.workers.set k .deleting } else none
  | .publish s m => some { st with workers := st.workers.map (deliver s m) }
  | .read k => readStep c st k
  | .hangup k =>
    match st.workers[k]? with
    | some (.reading _ _) => some { st with workers := st.workers.set k .deleting }
    | _ => none
  | .deleted k r =>
    if st.workers[k]? = some .deleting then
      (del st.jobs st.ep c.id r).map (fun p => { st with jobs := p.1, workers := st.workers.set k .finished })
    else none

/-- A history: the actions in order; `none` if one of them cannot happen. (cmd/client.go:244-343) -/
def run (c : Cmd) : St → List Act → Option St
  | st, [] => some st
  | st, a :: as =>
    match step c st a with
    | none => none
    | some st' => run c st' as

/-! ### client watch -/

/-- Where a goroutine of cmd/client.go:117-125 is: before ReadTraceJob, within it, or waiting for the end. -/
inductive WPc where
  | ready
  | reading (queue : List Msg)
  | idle
  deriving DecidableEq, Repr

/-- The goroutine of an endpoint, which it was given as an argument, cmd/client.go:115-126. -/
structure Reader where
  ep : Server
  pc : WPc
  deriving DecidableEq, Repr

/-- `client watch`, cmd/client.go:77-140. -/
structure WSt where
  /-- the main goroutine waits at cmd/client.go:104 -/
  listening : Bool
  /-- the process has ended -/
  over : Bool
  readers : List Reader
  /-- what was printed: by which goroutine, and which event -/
  printed : List (Nat × Nat)

/-- Once `watchJob` has started its goroutines, cmd/client.go:100, 115-126. -/
def watchStart (eps : List Server) : WSt := ⟨false, false, eps.map (⟨·, .ready⟩), []⟩

/-- What can happen. (cmd/client.go:93-140) -/
inductive WAct where
  | signal
  | listen
  | connect (k : Nat)
  | unconnected (k : Nat)
  | publish (s : Server) (m : Msg)
  | read (k : Nat)
  | hangup (k : Nat)
  deriving DecidableEq, Repr

/-- The message joins the queue of a websocket of server `s`, endpoint.go:211. -/
def wdeliver (s : Server) (m : Msg) (r : Reader) : Reader :=
  match r.pc with
  | .reading queue => if r.ep = s then { r with pc := .reading (queue ++ [m]) } else r
  | _ => r

/-- One action of `watch`. The channel for signals has no buffer: a signal is lost unless the main
goroutine is waiting for it, cmd/client.go:93-106, and ends the process if it is. An error is logged and
the goroutine waits, cmd/client.go:120-124. -/
def wstep (st : WSt) (a : WAct) : Option WSt :=
  if st.over then none
  else match a with
  | .signal => some { st with over := st.listening }
  | .listen => some { st with listening := true }
  | .connect k =>
    match st.readers[k]? with
    | some ⟨s, .ready⟩ => some { st with readers := st.readers.set k ⟨s, .reading []⟩ }
    | _ => none
  | .unconnected k =>
    match st.readers[k]? with
    | some ⟨s, .ready⟩ => some { st with readers := st.readers.set k ⟨s, .idle⟩ }
    | _ => none
  | .publish s m => some { st with readers := st.readers.map (wdeliver s m) }
  | .read k =>
    match st.readers[k]? with
    | some ⟨s, .reading (.event ev :: queue)⟩ =>
      some { st with
        readers := st.readers.set k ⟨s, .reading queue⟩, printed := st.printed ++ [(k, ev)] }
    | some ⟨s, .reading (.undecodable :: queue)⟩ =>
      some { st with readers := st.readers.set k ⟨s, .reading queue⟩ }
    | some ⟨s, .reading (.tooLong :: _)⟩ => some { st with readers := st.readers.set k ⟨s, .idle⟩ }
    | _ => none
  | .hangup k =>
    match st.readers[k]? with
    | some ⟨s, .reading _⟩ => some { st with readers := st.readers.set k ⟨s, .idle⟩ }
    | _ => none

/-- A history of `watch`. (cmd/client.go:93-140) -/
def wrun : WSt → List WAct → Option WSt
  | st, [] => some st
  | st, a :: as =>
    match wstep st a with
    | none => none
    | some st' => wrun st' as

/-! ### client delete and client query -/

/-- What `delete` prints for an endpoint, cmd/client.go:65-72. -/
inductive Line where
  | success (s : Server)
  | fail (s : Server)
  deriving DecidableEq, Repr

/-- The loop of `delete`, cmd/client.go:64-73, with the outcome of each request: the jobs, what was
printed, and the exit code. An outcome the server cannot have is `none`. -/
def deleteLoop (id : Id) : Jobs → List (Server × Deleted) → Option (Jobs × List Line × Nat)
  | jobs, [] => some (jobs, [], 0)
  | jobs, (s, r) :: rest =>
    match del jobs s id r with
    | none => none
    | some (jobs, false) => some (jobs, [.fail s], 1)
    | some (jobs, true) => (deleteLoop id jobs rest).map (fun p => (p.1, .success s :: p.2.1, p.2.2))

/-- What a server answers to a query: the running and the completed jobs, in any order (endpoint.go:346-354),
or an error. -/
inductive Listing where
  | jobs (running completed : List Id)
  | error
  deriving DecidableEq, Repr

/-- What `query` prints for an endpoint, cmd/client.go:365-375. -/
inductive Report where
  | jobs (s : Server) (ids : List Id)
  | error (s : Server)
  deriving DecidableEq, Repr

/-- The loop of `runQuery`, cmd/client.go:356-376. (`json.MarshalIndent` does not fail on these.) -/
def runQuery (completed : Bool) (answers : List (Server × Listing)) : List Report :=
  answers.map (fun p =>
    match p.2 with
    | .error => .error p.1
    | .jobs r d => .jobs p.1 (if completed then d else r))

end Swoll.ClientCmd
