/-
The life of a kernel probe, pkg/kernel/probe.go. The BPF module (gobpf's elf.Module) is outside the
model: what the probe does to it is a list of calls, and what it answers is given with each step.
-/
namespace Swoll.Lifecycle

/-- A call the probe makes to the module, and whether it succeeded. (probe.go:82-224) -/
inductive Call where
  /-- `module.Load`, probe.go:93. -/
  | load (ok : Bool)
  /-- `module.EnableTracepoint`, 138. -/
  | enable (tp : String) (ok : Bool)
  /-- `elf.InitPerfMap`, 184. -/
  | perfMap (ok : Bool)
  /-- `perfmap.PollStart` by the `Run` with this number, 190. -/
  | pollStart (run : Nat)
  /-- `perfmap.PollStop` by the `Run` with this number, 203. -/
  | pollStop (run : Nat)
  /-- `module.Close`, 154. -/
  | close (ok : Bool)
  deriving DecidableEq, Repr

/-- The Probe, probe.go:23-32. `config` is nil only in a Probe that was not made by NewProbe, and so is
the module. -/
structure Probe where
  config : Option (List String)
  hasModule : Bool
  initialized : Bool
  tpInitialized : Bool
  deriving DecidableEq, Repr

/-- The tracepoints of a default configuration, probe.go:34-50. -/
def defaultTracepoints : List String :=
  ["tracepoint/raw_syscalls/sys_enter", "tracepoint/raw_syscalls/sys_exit",
   "tracepoint/syscalls/sys_enter_execve"]

/-- NewProbe, probe.go:53-70; `bpf` says whether the reader is not nil. -/
def newProbe (bpf : Bool) (cfg : Option (List String)) : Option Probe :=
  if bpf then
    some { config := some (cfg.getD defaultTracepoints), hasModule := true,
           initialized := false, tpInitialized := false }
  else none

/-- What arrives from the perf map: an event, or a number of lost events, probe.go:178-181. -/
inductive Msg where
  | event (data : List UInt8)
  | lost (n : Nat)
  deriving DecidableEq, Repr

/-- A call of `Run` that has got as far as its loop, probe.go:192. -/
structure Loop where
  /-- Whether there is a callback. -/
  cb : Bool
  /-- Whether it is still in the loop. -/
  live : Bool
  /-- What the callback has been called with. -/
  got : List Msg
  deriving DecidableEq, Repr

/-- The probe, the running loops and what was asked of the module, probe.go:23-32, 192. -/
structure State where
  /-- `none` is the nil pointer. -/
  probe : Option Probe
  loops : List Loop
  calls : List Call
  deriving DecidableEq, Repr

/-- How a method returns: nil, an error, a panic, or not yet. (of the methods of probe.go:82-224) -/
inductive Res where
  | ok
  | err
  | panic
  | waits
  deriving DecidableEq, Repr

/-- What can happen. Methods may be called in any order and any number of times; several calls of
`Run` may be in their loops. (Each method up to its return, or to the loop of Run, is one step.)
(the methods of probe.go:82-224) -/
inductive Action where
  /-- `InitProbe`: what Load answers, and what each option answers. (An option is taken to use the
  module's maps only, as the two in probe.go:111-129 do.) -/
  | initProbe (load : Bool) (opts : List Bool)
  /-- `InitTracepoints`: what EnableTracepoint answers for each of the tracepoints. -/
  | initTracepoints (tps : Nat → Bool)
  /-- `Run` with or without a callback: what EnableTracepoint and InitPerfMap answer. -/
  | run (cb : Bool) (tps : Nat → Bool) (perf : Bool)
  /-- The loop of the `i`th Run receives a message, for which the callback returns nil or an error. -/
  | receive (i : Nat) (m : Msg) (ok : Bool)
  /-- The loop of the `i`th Run sees that its context is done. -/
  | cancel (i : Nat)
  /-- `Close`: what the module's Close answers. -/
  | close (ok : Bool)

/-- InitProbe, probe.go:82-107. -/
def initProbe (s : State) (load : Bool) (opts : List Bool) : State × Res :=
  match s.probe with
  | none => (s, .err)
  | some p =>
    if !p.hasModule then (s, .err)
    else if p.initialized then (s, .ok)
    else
      let s := { s with calls := s.calls ++ [.load load] }
      if !load then (s, .err)
      else if opts.all id then ({ s with probe := some { p with initialized := true } }, .ok)
      else (s, .err)

/-- The loop over the tracepoints, probe.go:137-141: the calls made, and whether all succeeded. -/
def enableAll (tps : List String) (answers : Nat → Bool) (i : Nat) : List Call × Bool :=
  match tps with
  | [] => ([], true)
  | tp :: rest =>
    if answers i then
      let r := enableAll rest answers (i + 1)
      (.enable tp true :: r.1, r.2)
    else ([.enable tp false], false)

/-- InitTracepoints, probe.go:132-146. A nil probe, a probe without configuration and one without module
are dereferenced. -/
def initTracepoints (s : State) (answers : Nat → Bool) : State × Res :=
  match s.probe with
  | none => (s, .panic)
  | some p =>
    if p.tpInitialized then (s, .ok)
    else
      match p.config with
      | none => (s, .panic)
      | some tps =>
        if !p.hasModule && tps != [] then (s, .panic)
        else
          let r := enableAll tps answers 0
          let s := { s with calls := s.calls ++ r.1 }
          if r.2 then ({ s with probe := some { p with tpInitialized := true } }, .ok)
          else (s, .err)

/-- The end of Run before its loop, probe.go:178-190. -/
def startLoop (s : State) (cb perf : Bool) : State × Res :=
  if perf then
    ({ s with calls := s.calls ++ [.perfMap true, .pollStart s.loops.length],
              loops := s.loops ++ [{ cb := cb, live := true, got := [] }] }, .waits)
  else ({ s with calls := s.calls ++ [.perfMap false] }, .err)

/-- Run up to its loop, probe.go:162-190. -/
def run (s : State) (cb : Bool) (answers : Nat → Bool) (perf : Bool) : State × Res :=
  match s.probe with
  | none => (s, .err)
  | some p =>
    if !p.hasModule then (s, .err)
    else if !p.initialized then (s, .err)
    else if p.tpInitialized then startLoop s cb perf
    else
      match initTracepoints s answers with
      | (s, .ok) => startLoop s cb perf
      | (s, r) => (s, r)

/-- The loop receives a message, probe.go:194-200 and 205-211. -/
def receive (s : State) (i : Nat) (m : Msg) (ok : Bool) : State × Res :=
  match s.loops[i]? with
  | none => (s, .waits)
  | some l =>
    if !l.live then (s, .waits)
    else if !l.cb then (s, .waits)
    else if ok then ({ s with loops := s.loops.set i { l with got := l.got ++ [m] } }, .waits)
    else ({ s with loops := s.loops.set i { l with live := false, got := l.got ++ [m] } }, .err)

/-- The loop sees the end of its context, probe.go:201-204. -/
def cancel (s : State) (i : Nat) : State × Res :=
  match s.loops[i]? with
  | none => (s, .waits)
  | some l =>
    if !l.live then (s, .waits)
    else ({ s with loops := s.loops.set i { l with live := false },
                   calls := s.calls ++ [.pollStop i] }, .err)

/-- Close, probe.go:149-158. -/
def close (s : State) (ok : Bool) : State × Res :=
  match s.probe with
  | none => (s, .ok)
  | some p =>
    let s := { s with probe := some { p with initialized := false, tpInitialized := false } }
    if !p.hasModule then (s, .panic)
    else ({ s with calls := s.calls ++ [.close ok] }, if ok then .ok else .err)

/-- One action on the methods of probe.go:82-224. -/
def step (s : State) : Action → State × Res
  | .initProbe load opts => initProbe s load opts
  | .initTracepoints answers => initTracepoints s answers
  | .run cb answers perf => run s cb answers perf
  | .receive i m ok => receive s i m ok
  | .cancel i => cancel s i
  | .close ok => close s ok

/-- A probe just made, or a nil one. (probe.go:53-70) -/
def init (p : Option Probe) : State := { probe := p, loops := [], calls := [] }

/-- A history of calls of probe.go:82-224. -/
def exec (s : State) : List Action → State
  | [] => s
  | a :: as => exec (step s a).1 as

/-- What the calls of a history returned. (probe.go:82-224) -/
def results (s : State) : List Action → List Res
  | [] => []
  | a :: as => (step s a).2 :: results (step s a).1 as

/-- KernelReader.handler, pkg/event/reader/kernel.go:31-36: what it sends on the backlog channel. It
never returns an error. -/
def forward : Msg → List (List UInt8)
  | .event d => [d]
  | .lost _ => []

end Swoll.Lifecycle
