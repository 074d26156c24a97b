import Verif.Model.Probe
/-
The tables of the probe with their sizes: the handlers of Model/Probe, where a table of the kernel that is full refuses a
new key, as a `BPF_MAP_TYPE_HASH` does (`E2BIG`; nobody looks at the result, probe.c:1506, 1529, 2574). A key that is there
is replaced even in a full table. The table of rules is not bounded here: its refusals are reported to the caller and are
the `Faults` of Model/Filter.
-/
namespace Swoll.Bounded
open Swoll Swoll.Syscalls Swoll.Filter Swoll.Probe

/-- `max_entries` of `swoll_metrics` and of `swoll_state_map`, probe.c:222, 248. -/
def capacity : Nat := 65535

/-- The call at an enter finds no place in `swoll_state_map`. (probe.c:2574) -/
def noRoom (cap : Nat) (s : PState) (c : Ctx) : Bool :=
  (GoMap.get s.state c.pidTgid).isNone && decide (cap ≤ s.state.length)

/-- The operation, with what the table of calls answers. (probe.c:2574) -/
def told (cap : Nat) (s : PState) : POp → POp
  | .enter c args _ => .enter c args (noRoom cap s c)
  | o => o

/-- The metrics after a handler that stores one metric, or none: refused if it would be one too many.
(probe.c:1506, 1529) -/
def capped (cap : Nat) (old new : GoMap MKey MVal) : GoMap MKey MVal := if new.length ≤ cap then new else old

/-- One step with bounded tables. (probe.c:2542-2769, filter.go:102-331) -/
def bstep (cap : Nat) (tbl : Syscalls) (hasFiller : BitVec 32 → Bool) (s : PState) (o : POp) : PState × Option Event :=
  let r := pstep tbl hasFiller s (told cap s o)
  ({ r.1 with metrics := capped cap s.metrics r.1.metrics }, r.2)

/-- State after a history. (probe.c:2542-2769, filter.go:102-331) -/
def bafter (cap : Nat) (tbl : Syscalls) (hasFiller : BitVec 32 → Bool) (ops : List POp) : PState :=
  ops.foldl (fun s o => (bstep cap tbl hasFiller s o).1) PState.init

end Swoll.Bounded
