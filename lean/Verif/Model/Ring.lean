/-
From the probe to the callback of `Probe.Run`: a ring for each CPU, and the reader of gobpf, which empties them one after
the other.

The probe writes each event to the ring of the CPU it runs on (`BPF_F_CURRENT_CPU`, probe.c:2727-2728, 2766-2767; 2048 pages
each, pkg/kernel/probe.go:92-94). Writing is as in Linux (kernel/events/ring_buffer.c, `__perf_output_begin`): without room
the event is counted as missed; before the next one that fits goes a record of how many were missed. The reader is
`(*PerfMap).PollStart` of gobpf (elf/perf.go of the version in go.mod) with no function for timestamps, as `Run` sets none:
ring by ring it takes all records there are, then it hands over what it took, and starts again. Records of missed events
are handed over at once.

Simplifications: an event is any value; waiting for the rings to fill (poll) and stopping are left out; the two channels
have no buffer, so handing over is one step with the callback.
-/
namespace Swoll.Ring

/-- Sizes in bytes: what a ring holds, a record of an event, a record of missed ones. (probe.go:92-94; Linux) -/
structure Sizes where
  room : Nat
  event : Nat
  note : Nat
  deriving DecidableEq, Repr

/-- A record in a ring: `PERF_RECORD_SAMPLE`, `PERF_RECORD_LOST`. (Linux; used at probe.go:184-210) -/
inductive Rec (α : Type) where
  | event (a : α)
  | missed (n : Nat)
  deriving DecidableEq, Repr

/-- A ring, oldest record first, with the number of events missed since the last record. (Linux; used at probe.c:2727-2728) -/
structure Buf (α : Type) where
  recs : List (Rec α)
  missed : Nat
  deriving DecidableEq, Repr

/-- Size of a record. (Linux) -/
def Rec.size {α : Type} (z : Sizes) : Rec α → Nat
  | .event _ => z.event
  | .missed _ => z.note

/-- Bytes in use. (Linux) -/
def Buf.used {α : Type} (z : Sizes) (b : Buf α) : Nat := (b.recs.map (Rec.size z)).sum

/-- The record of the events missed, if any. (Linux, `__perf_output_begin`) -/
def Buf.note {α : Type} (b : Buf α) : List (Rec α) := if b.missed = 0 then [] else [.missed b.missed]

/-- `bpf_perf_event_output`, as used at probe.c:2727-2728, 2766-2767. -/
def Buf.put {α : Type} (z : Sizes) (b : Buf α) (a : α) : Buf α :=
  if b.used z + (if b.missed = 0 then 0 else z.note) + z.event ≤ z.room then ⟨b.recs ++ b.note ++ [.event a], 0⟩
  else { b with missed := b.missed + 1 }

/-- Where the reader is: taking records from the ring of a CPU, or handing over. (gobpf; used at probe.go:190) -/
inductive Pc where
  | reading (cpu : Nat)
  | handing
  deriving DecidableEq, Repr

/-- The rings, what the reader has taken, where it is, and what the callback was called with: the events, and the numbers
of missed events. (gobpf; probe.go:178-215) -/
structure State (α : Type) where
  bufs : List (Buf α)
  taken : List α
  pc : Pc
  given : List α
  told : List Nat
  deriving DecidableEq, Repr

/-- At the start. (probe.go:178-190) -/
def init (α : Type) (cpus : Nat) : State α := ⟨List.replicate cpus ⟨[], 0⟩, [], .reading 0, [], []⟩

/-- The probe writes an event on a CPU. (probe.c:2727-2728, 2766-2767) -/
def write {α : Type} (z : Sizes) (s : State α) (cpu : Nat) (a : α) : State α :=
  match s.bufs[cpu]? with
  | none => s
  | some b => { s with bufs := s.bufs.set cpu (b.put z a) }

/-- One step of the reader. (gobpf `PollStart`; probe.go:190-213) -/
def poll {α : Type} (s : State α) : State α :=
  match s.pc with
  | .reading i =>
    match s.bufs[i]? with
    | none => { s with pc := .handing }
    | some b =>
      match b.recs with
      | [] => { s with pc := .reading (i + 1) }
      | .event a :: rs => { s with bufs := s.bufs.set i { b with recs := rs }, taken := s.taken ++ [a] }
      | .missed n :: rs => { s with bufs := s.bufs.set i { b with recs := rs }, told := s.told ++ [n] }
  | .handing =>
    match s.taken with
    | [] => { s with pc := .reading 0 }
    | a :: l => { s with taken := l, given := s.given ++ [a] }

/-- What happens: an event is written on a CPU, or the reader goes on. (probe.c:2727-2767, probe.go:190-213) -/
inductive Act (α : Type) where
  | write (cpu : Nat) (a : α)
  | poll

/-- One step. (probe.c:2727-2767, probe.go:190-213) -/
def step {α : Type} (z : Sizes) (s : State α) : Act α → State α
  | .write cpu a => write z s cpu a
  | .poll => poll s

/-- After a schedule. (probe.c:2727-2767, probe.go:190-213) -/
def run {α : Type} (z : Sizes) (s : State α) (acts : List (Act α)) : State α := acts.foldl (step z) s

end Swoll.Ring
