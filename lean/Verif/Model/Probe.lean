import Verif.Model.Filter
/-
Model of the tracepoint handlers and kernel metrics in internal/bpf/probe.c, and of the
user-space metrics reader pkg/kernel/metrics/handler.go.
-/
namespace Swoll.Probe
open Swoll Swoll.Syscalls Swoll.Filter

/-- `struct swoll_metrics_key`, probe.c:72-77 = `key`, pkg/kernel/metrics/metrics.go:10-15
(padding, always zero, left out). -/
structure MKey where
  pidNs : BitVec 32
  syscall : BitVec 32
  errno : BitVec 16
  deriving DecidableEq, Repr

/-- `struct swoll_metrics_val`, probe.c:79-85 = `val`, metrics.go:19-25. -/
structure MVal where
  count : BitVec 64
  time : BitVec 64
  first : BitVec 64
  last : BitVec 64
  enterKtime : BitVec 64
  deriving DecidableEq, Repr

/-- `struct swoll_event_key`, probe.c:66-70. -/
structure EvKey where
  id : BitVec 64
  args : List (BitVec 64)
  uidGid : BitVec 64
  entr : BitVec 64
  deriving DecidableEq, Repr

/-- What the handlers read about the current task and tracepoint: `bpf_get_current_pid_tgid`,
`bpf_get_current_uid_gid`, the pid namespace (`swoll__task_pid_namespace`, probe.c:1357-1369),
the syscall id (`on_enter.id`/`on_exit.id`, probe.c:56-64, at the same offset) and the two
reads of the clock: in the metrics code and in the event code. -/
structure Ctx where
  pidTgid : BitVec 64
  uidGid : BitVec 64
  ns : BitVec 32
  id : BitVec 64
  mtime : BitVec 64
  time : BitVec 64
  deriving DecidableEq, Repr

/-- `swoll__syscall_get_nr` truncated to `__u32`, probe.c:1388-1392, 1412. -/
def Ctx.nr (c : Ctx) : BitVec 32 := c.id.setWidth 32

/-- The process id used for filtering: `pid_tgid >> 32`, probe.c:1411. -/
def Ctx.proc (c : Ctx) : BitVec 32 := (c.pidTgid >>> 32).setWidth 32

/-- The parts of `struct swoll_event` (probe.c:118-147) concerned with pairing.  `args` are the
saved register arguments handed to the per-syscall filler (empty for execve, which reads its
own tracepoint). -/
structure Event where
  pidTid : BitVec 64
  uidGid : BitVec 64
  syscall : BitVec 32
  pidNs : BitVec 32
  entr : BitVec 64
  exit : BitVec 64
  args : List (BitVec 64)
  ret : BitVec 64
  deriving DecidableEq, Repr

/-- The kernel side state: the filter maps, `swoll_metrics` (probe.c:216-223) and
`swoll_state_map` (probe.c:242-249). -/
structure PState where
  maps : KMaps
  metrics : GoMap MKey MVal
  state : GoMap (BitVec 64) EvKey

/-- After loading. (probe.c:202-249) -/
def PState.init : PState := ⟨KMaps.empty, [], []⟩

/-- `(int)ret < 0 ? -(int)ret : 0`, probe.c:1571; for the most negative int the two's
complement negation is taken. -/
def errOf (ret : BitVec 64) : BitVec 32 :=
  if (ret.setWidth 32).slt 0 then -(ret.setWidth 32) else 0

/-- `swoll__update_metrics`, probe.c:1460-1507.  A full map is not modelled. -/
def updateMetrics (m : GoMap MKey MVal) (ns nr err : BitVec 32) (ktime : BitVec 64) : GoMap MKey MVal :=
  let key0 : MKey := ⟨ns, nr, 0⟩
  let isErr : Bool := err ≠ 0 && err.slt 255
  let enter0 : BitVec 64 :=
    if isErr then
      match GoMap.get m key0 with
      | some v => v.enterKtime
      | none => ktime
    else 0
  let key : MKey := if isErr then ⟨ns, nr, err.setWidth 16⟩ else key0
  let new : MVal :=
    match GoMap.get m key with
    | some v =>
      let enter := if err = 0 then v.enterKtime else enter0
      { v with time := v.time + (ktime - enter) }
    | none => ⟨0, 0, ktime, 0, 0⟩
  GoMap.set m key { new with count := new.count + 1, last := ktime }

/-- `swoll__update_metrics_ktime`, probe.c:1509-1530. -/
def updateKtime (m : GoMap MKey MVal) (ns nr : BitVec 32) (ktime : BitVec 64) : GoMap MKey MVal :=
  let key : MKey := ⟨ns, nr, 0⟩
  let new : MVal :=
    match GoMap.get m key with
    | some v => v
    | none => ⟨0, 0, ktime, 0, 0⟩
  GoMap.set m key { new with enterKtime := ktime }

/-- `swoll__fill_metrics`, probe.c:1532-1577; `ret = none` in the enter state. -/
def fillMetrics (s : PState) (c : Ctx) (ret : Option (BitVec 64)) : PState :=
  let r := runNfilter s.maps fmodeMetrics c.ns c.proc c.nr
  let s1 := { s with maps := r.1 }
  if r.2 = factionDrop then s1
  else if c.nr = 0xFFFFFFFF#32 then s1
  else
    match ret with
    | none => { s1 with metrics := updateKtime s1.metrics c.ns c.nr c.mtime }
    | some ret => { s1 with metrics := updateMetrics s1.metrics c.ns c.nr (errOf ret) c.mtime }

/-- `__NR_execve` on x86-64. (probe.c:2734-2769) -/
def nrExecve : BitVec 32 := 59#32

/-- `swoll__enter`, probe.c:2542-2578; `full`: the state map refuses the update. -/
def enter (s : PState) (c : Ctx) (args : List (BitVec 64)) (full : Bool) : PState :=
  let s1 := fillMetrics s c none
  if c.nr = nrExecve then s1
  else
    let r := runNfilter s1.maps fmodeSyscall c.ns c.proc c.nr
    let s2 := { s1 with maps := r.1 }
    if r.2 = factionDrop then s2
    else if full then s2
    else { s2 with state := GoMap.set s2.state c.pidTgid ⟨c.id, args, c.uidGid, c.time⟩ }

/-- `swoll__exit`, probe.c:2580-2732; `scratch`: the per-cpu scratch lookup succeeds;
`hasFiller nr`: the switch at 2632-2725 has a case for `nr` (only then `event->ret` is set,
through SWOLL_CALL_INIT, probe.c:303-312).  Argument filling is modelled in `Model/Args`. -/
def exit (hasFiller : BitVec 32 → Bool) (s : PState) (c : Ctx) (ret : BitVec 64) (scratch : Bool) :
    PState × Option Event :=
  let s1 := fillMetrics s c (some ret)
  match GoMap.get s1.state c.pidTgid with
  | none => (s1, none)
  | some ek =>
    let s2 := { s1 with state := GoMap.del s1.state c.pidTgid }
    if !scratch then (s2, none)
    else if c.id ≠ ek.id then (s2, none)
    else (s2, some ⟨c.pidTgid, ek.uidGid, ek.id.setWidth 32, c.ns, ek.entr, c.time, ek.args,
      if hasFiller (ek.id.setWidth 32) then ret else 0⟩)

/-- `swoll__syscalls_execve`, probe.c:2734-2769. -/
def execve (s : PState) (c : Ctx) (scratch : Bool) : PState × Option Event :=
  let r := runNfilter s.maps fmodeSyscall c.ns c.proc c.nr
  let s1 := { s with maps := r.1 }
  if r.2 = factionDrop then (s1, none)
  else if !scratch then (s1, none)
  else (s1, some ⟨c.pidTgid, c.uidGid, nrExecve, c.ns, c.time, c.time, [], 0⟩)

/-- What can happen: a filter API call, or one of the three handlers running.
(filter.go:102-331, probe.c:2542-2769) -/
inductive POp where
  | api (o : Filter.Op)
  | enter (c : Ctx) (args : List (BitVec 64)) (full : Bool)
  | exit (c : Ctx) (ret : BitVec 64) (scratch : Bool)
  | execve (c : Ctx) (scratch : Bool)

/-- One step, with the event emitted to the perf buffer, if any.
(filter.go:102-331, probe.c:2542-2769) -/
def pstep (tbl : Syscalls) (hasFiller : BitVec 32 → Bool) (s : PState) : POp → PState × Option Event
  | .api o => ({ s with maps := (Filter.step tbl s.maps o).1 }, none)
  | .enter c args full => (enter s c args full, none)
  | .exit c ret scratch => exit hasFiller s c ret scratch
  | .execve c scratch => execve s c scratch

/-- State after a history. (filter.go:102-331, probe.c:2542-2769) -/
def prun (tbl : Syscalls) (hasFiller : BitVec 32 → Bool) (s : PState) (ops : List POp) : PState :=
  ops.foldl (fun s o => (pstep tbl hasFiller s o).1) s

/-- `(*Handler).QueryAll`, pkg/kernel/metrics/handler.go:56-79, over the map in the kernel's
order.  `k = n` makes both pointers the same buffer after the first round; the kernel copies
the key in before it writes the next one out, so this is a plain iteration. -/
def queryAll (m : GoMap MKey MVal) (fuel : Nat) : Option (List (MKey × MVal)) :=
  BpfIter.iterate m fuel ⟨0, 0, 0⟩

/-- `(*Handler).PruneNamespace`, handler.go:23-54: collect, then delete (delete errors are
ignored); returns the remaining map and the reported number. -/
def pruneNamespace (m : GoMap MKey MVal) (ns : Int) (fuel : Nat) : Option (GoMap MKey MVal × Nat) :=
  (BpfIter.iterate m fuel ⟨0, 0, 0⟩).map (fun es =>
    let toDelete := (es.map (·.1)).filter (fun k => k.pidNs = BitVec.ofInt 32 ns)
    (toDelete.foldl GoMap.del m, toDelete.length))

end Swoll.Probe
