import Verif.Model.Probe
/-
The tracepoint handlers of internal/bpf/probe.c on several CPUs: handlers of different CPUs run at the same
time, and what one does with a map falls between the lookup and the update of another. `Model/Probe` runs
each handler in one go; here they are cut at their accesses to shared memory.

A handler is not preempted by another on its CPU (BPF programs at tracepoints run with preemption off), so
there is at most one handler per CPU; there is no bound on the number of CPUs. A lookup together with the
copy of the value, and an update, each happen at once; a copy torn by a concurrent update is not modelled.
-/
namespace Swoll.Smp
open Swoll Swoll.Filter Swoll.Probe

/-! ### Metrics -/

/-- Is the result counted under its error number? `err && err < 255`, probe.c:1472. -/
def isErr (err : BitVec 32) : Bool := err ≠ 0 && err.slt 255

/-- The entry in which the result of a call is counted, probe.c:1469-1487. -/
def keyOf (ns nr err : BitVec 32) : MKey := if isErr err then ⟨ns, nr, err.setWidth 16⟩ else ⟨ns, nr, 0⟩

/-- The metrics part of a handler, from the point where the filter let it through: of the entry handler
(`swoll__update_metrics_ktime`, probe.c:1509-1530) and of the exit handler (`swoll__update_metrics`,
probe.c:1460-1507), with the reading of the clock at its start. -/
inductive MJob where
  | enter (ns nr : BitVec 32) (now : BitVec 64)
  | exit (ns nr err : BitVec 32) (now : BitVec 64)
  deriving DecidableEq, Repr

/-- How far the handler on a CPU is: nothing runs; before its first lookup; after reading the entry time
(probe.c:1480-1484); with the new value, `new_val`, on its stack before the update (probe.c:1506, 1529).
`counts` tells the exit handler from the entry handler. -/
inductive MPc where
  | idle
  | start (j : MJob)
  | timed (ns nr err : BitVec 32) (now enter0 : BitVec 64)
  | store (key : MKey) (val : MVal) (counts : Bool)
  deriving DecidableEq, Repr

/-- The shared map (`swoll_metrics`, probe.c:216-223) and the CPUs. -/
structure MState where
  metrics : GoMap MKey MVal
  cpu : Nat → MPc

/-- After loading. (probe.c:216-223) -/
def MState.init : MState := ⟨[], fun _ => .idle⟩

/-- What can happen next: a handler starts on a CPU, the handler of a CPU goes on to its next access, or
the agent deletes an entry (`PruneNamespace`, pkg/kernel/metrics/handler.go:44-50). -/
inductive MAct where
  | call (c : Nat) (j : MJob)
  | step (c : Nat)
  | delete (k : MKey)
  deriving DecidableEq, Repr

/-- Change what one CPU does. (the handlers of probe.c:1460-1530 run per CPU) -/
def MState.put (s : MState) (c : Nat) (p : MPc) : MState :=
  { s with cpu := fun d => if d = c then p else s.cpu d }

/-- The next access of the handler on CPU `c`. The result is the entry under which a completed call has
just been counted, if that was the last access of an exit handler.
(probe.c:1460-1507 and 1509-1530) -/
def advance (s : MState) (c : Nat) : MState × Option MKey :=
  match s.cpu c with
  | .idle => (s, none)
  | .start (.enter ns nr now) =>
    let key : MKey := ⟨ns, nr, 0⟩
    let new : MVal := match GoMap.get s.metrics key with
      | some v => v
      | none => ⟨0, 0, now, 0, 0⟩
    (s.put c (.store key { new with enterKtime := now } false), none)
  | .start (.exit ns nr err now) =>
    let enter0 : BitVec 64 :=
      if isErr err then
        match GoMap.get s.metrics ⟨ns, nr, 0⟩ with
        | some v => v.enterKtime
        | none => now
      else 0
    (s.put c (.timed ns nr err now enter0), none)
  | .timed ns nr err now enter0 =>
    let key := keyOf ns nr err
    let new : MVal := match GoMap.get s.metrics key with
      | some v =>
        let enter := if err = 0 then v.enterKtime else enter0
        { v with time := v.time + (now - enter) }
      | none => ⟨0, 0, now, 0, 0⟩
    (s.put c (.store key { new with count := new.count + 1, last := now } true), none)
  | .store key val counts =>
    ({ s with metrics := GoMap.set s.metrics key val }.put c .idle, if counts then some key else none)

/-- One action. A CPU that runs a handler does not start another.
(probe.c:2542-2732, handler.go:44-50) -/
def mstep (s : MState) : MAct → MState × Option MKey
  | .call c j => if s.cpu c = .idle then (s.put c (.start j), none) else (s, none)
  | .step c => advance s c
  | .delete k => ({ s with metrics := GoMap.del s.metrics k }, none)

/-- A schedule: the state at its end and the completed calls that were counted, in order.
(probe.c:2542-2732, handler.go:44-50) -/
def mrun (s : MState) : List MAct → MState × List MKey
  | [] => (s, [])
  | a :: as =>
    let r := mstep s a
    let q := mrun r.1 as
    (q.1, r.2.toList ++ q.2)

/-- The number of calls the map reports for an entry. (metrics.go:19-25) -/
def reported (s : MState) (k : MKey) : Nat :=
  match GoMap.get s.metrics k with
  | some v => v.count.toNat
  | none => 0

/-! ### Sampling -/

/-- How far `swoll__run_nfilter` on a CPU is with the rule that decides, whose value it holds a pointer to
(probe.c:1434-1443): nothing runs; it has the pointer; it has read `hits`; it has written it; it has read
`sample_count`. The compiler keeps the incremented count in a register for the two tests. -/
inductive SPc where
  | idle
  | found
  | hits (h : BitVec 64)
  | counted
  | sample (n : BitVec 32)
  deriving DecidableEq, Repr

/-- The value of the rule (`struct filter_val`, probe.c:194-200) and the CPUs. -/
structure SState where
  val : FilterVal
  cpu : Nat → SPc

/-- A rule as it was written to the map, with no call being decided. (filter.go:226-243) -/
def SState.fresh (v : FilterVal) : SState := ⟨v, fun _ => .idle⟩

/-- What can happen next: a call whose verdict is up to the rule is made on a CPU, or the handler of a CPU
goes on. (probe.c:1430-1448) -/
inductive SAct where
  | call (c : Nat)
  | step (c : Nat)
  deriving DecidableEq, Repr

/-- Change what one CPU does. (probe.c:1430-1448 runs per CPU) -/
def SState.put (s : SState) (c : Nat) (p : SPc) : SState :=
  { s with cpu := fun d => if d = c then p else s.cpu d }

/-- One action, with the verdict it reaches, if any. (probe.c:1434-1443) -/
def sstep (s : SState) : SAct → SState × Option (BitVec 8)
  | .call c => if s.cpu c = .idle then (s.put c .found, none) else (s, none)
  | .step c =>
    match s.cpu c with
    | .idle => (s, none)
    | .found => (s.put c (.hits s.val.hits), none)
    | .hits h => ({ s with val := { s.val with hits := h + 1 } }.put c .counted, none)
    | .counted =>
      if s.val.sampleRate.toNat > 0 then (s.put c (.sample s.val.sampleCount), none)
      else (s.put c .idle, some s.val.action)
    | .sample n =>
      let s' := { s with val := { s.val with sampleCount := n + 1 } }.put c .idle
      if (n + 1).toNat > 1 ∧ (n + 1).toNat % s.val.sampleRate.toNat ≠ 0 then (s', some factionDrop)
      else (s', some s.val.action)

/-- A schedule: the state at its end and the verdicts, in order. (probe.c:1430-1448) -/
def srun (s : SState) : List SAct → SState × List (BitVec 8)
  | [] => (s, [])
  | a :: as =>
    let r := sstep s a
    let q := srun r.1 as
    (q.1, r.2.toList ++ q.2)

/-! ### Pairing -/

/-- A handler of a thread, from the point where the filter let it through: entry with what is to be kept
(probe.c:2567-2575), or exit. -/
inductive PJob where
  | enter (k : EvKey)
  | exit (id : BitVec 64) (ns : BitVec 32) (now ret : BitVec 64)
  deriving DecidableEq, Repr

/-- How far the handler of a thread on a CPU is: nothing runs; before the access to the state map; the event
is being filled in the CPU's buffer (probe.c:2612-2726), reading the thread's entry through the pointer
found; it is to be sent; the thread's entry is to be deleted. -/
inductive PPc where
  | idle
  | start (t : BitVec 64) (j : PJob)
  | fill (t : BitVec 64) (id : BitVec 64) (ns : BitVec 32) (now ret : BitVec 64)
  | send (t : BitVec 64)
  | drop (t : BitVec 64)
  deriving DecidableEq, Repr

/-- The thread a CPU works for. (probe.c:2545, 2600: `pid_tid`) -/
def PPc.thread : PPc → Option (BitVec 64)
  | .idle => none
  | .start t _ => some t
  | .fill t _ _ _ _ => some t
  | .send t => some t
  | .drop t => some t

/-- The state map (`swoll_state_map`, probe.c:242-249), the buffer of each CPU (`swoll_event_scratch`,
probe.c:256-263), and the CPUs, numbered below `cpus`. -/
structure PSt where
  cpus : Nat
  state : GoMap (BitVec 64) EvKey
  scratch : Nat → Option Event
  cpu : Nat → PPc

/-- After loading, on a machine with that many CPUs. (probe.c:242-263) -/
def PSt.init (cpus : Nat) : PSt := ⟨cpus, [], fun _ => none, fun _ => .idle⟩

/-- What can happen next: a thread's handler starts on a CPU, or the handler of a CPU goes on.
(probe.c:2542-2732) -/
inductive PAct where
  | call (c : Nat) (t : BitVec 64) (j : PJob)
  | step (c : Nat)
  deriving DecidableEq, Repr

/-- Change what one CPU does. (probe.c:2542-2732 runs per CPU) -/
def PSt.put (s : PSt) (c : Nat) (p : PPc) : PSt := { s with cpu := fun d => if d = c then p else s.cpu d }

/-- The next access of the handler on CPU `c`, with the event sent, if any. The lookup of the CPU's buffer
succeeds, and all fields of the event are filled in one step: nothing else touches that buffer.
Calls whose filler does not set the return value are left to `Model/Probe`. (probe.c:2575, 2602-2729) -/
def padvance (s : PSt) (c : Nat) : PSt × Option Event :=
  match s.cpu c with
  | .idle => (s, none)
  | .start t (.enter k) => ({ s with state := GoMap.set s.state t k }.put c .idle, none)
  | .start t (.exit id ns now ret) =>
    match GoMap.get s.state t with
    | none => (s.put c .idle, none)
    | some k => if id ≠ k.id then (s.put c (.drop t), none) else (s.put c (.fill t id ns now ret), none)
  | .fill t id ns now ret =>
    match GoMap.get s.state t with
    | none => (s.put c (.drop t), none)
    | some k =>
      let ev : Event := ⟨t, k.uidGid, id.setWidth 32, ns, k.entr, now, k.args, ret⟩
      ({ s with scratch := fun d => if d = c then some ev else s.scratch d }.put c (.send t), none)
  | .send t => (s.put c (.drop t), s.scratch c)
  | .drop t => ({ s with state := GoMap.del s.state t }.put c .idle, none)

/-- Some CPU works for the thread. (probe.c:2542-2732) -/
def PSt.busy (s : PSt) (t : BitVec 64) : Bool := (List.range s.cpus).any fun c => (s.cpu c).thread = some t

/-- One action. A CPU that runs a handler does not start another, and a thread is on one CPU at a time. The
second result is the handler that was started, the third the event sent. (probe.c:2542-2732) -/
def pairStep (s : PSt) : PAct → PSt × Option (BitVec 64 × PJob) × Option Event
  | .call c t j =>
    if c < s.cpus ∧ s.cpu c = .idle ∧ s.busy t = false then (s.put c (.start t j), some (t, j), none)
    else (s, none, none)
  | .step c => ((padvance s c).1, none, (padvance s c).2)

/-- A schedule: the state at its end, the handlers started and the events sent, in order.
(probe.c:2542-2732) -/
def pairRun (s : PSt) : List PAct → PSt × List (BitVec 64 × PJob) × List Event
  | [] => (s, [], [])
  | a :: as =>
    let r := pairStep s a
    let q := pairRun r.1 as
    (q.1, r.2.1.toList ++ q.2.1, r.2.2.toList ++ q.2.2)

end Swoll.Smp
