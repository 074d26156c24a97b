import Verif.Model.Host
import Verif.Spec.Daemon
/-
What a user of `swoll trace --no-containers` expects to see: the calls they asked for, by whatever
thread, in the order in which they ended.
-/
namespace Swoll.Spec.Host
open Swoll Swoll.Host
open Swoll.Event (Task Mem KEvent TraceEvent)

/-- The user asked for the calls with this number: by name, or by naming nothing if it is execve. -/
def Asked (tbl : Syscalls.Syscalls) (given : List String) (nr : BitVec 32) : Prop :=
  ∃ n s, (n ∈ given ∨ given = [] ∧ n = "execve") ∧ Syscalls.lookup tbl (.str n) = some s ∧
    BitVec.ofNat 32 s.nr = nr

/-- Every name is that of a system call. -/
def Known (tbl : Syscalls.Syscalls) (given : List String) : Prop :=
  ∀ n ∈ given, (Syscalls.lookup tbl (.str n)).isSome

/-- The end of a call of this thread. -/
def Ends (tgid pid : BitVec 32) : Op → Prop
  | .exit t .. => t.tgid = tgid ∧ t.pid = pid
  | _ => False

/-- The beginning of a call of this thread that the user asked for, noted by the probe. -/
def Begins (tbl : Syscalls.Syscalls) (given : List String) (tgid pid : BitVec 32) : Op → Prop
  | .enter t id _ _ _ full => t.tgid = tgid ∧ t.pid = pid ∧ full = false ∧
      Asked tbl given (id.setWidth 32) ∧ id.setWidth 32 ≠ 59#32
  | _ => False

/-- The operation at position `e` of the history ends a call the user asked for, which is not an
execve, made by thread `t`; the sample was not lost. `c` says what call it was: number, registers and
owner as at its beginning; result, memory and times as measured. -/
def Completed (tbl : Syscalls.Syscalls) (given : List String) (hist : List Op) (e : Nat) (t : Task)
    (c : Event.Call) (scratch : KEvent) : Prop :=
  ∃ before t0 id m0 args between m1,
    hist.take e = before ++ .enter t0 id m0 c.start args false :: between ∧
    hist[e]? = some (.exit t id c.ret m1 c.finish c.mem (some scratch) false) ∧
    t0.tgid = t.tgid ∧ t0.pid = t.pid ∧
    (∀ o ∈ between, ¬ Ends t.tgid t.pid o ∧ ¬ Begins tbl given t.tgid t.pid o) ∧
    c.nr = id.setWidth 32 ∧ c.args = (fun i => args.getD i 0) ∧ c.uid = t0.uid ∧ c.gid = t0.gid ∧
    Asked tbl given c.nr ∧ c.nr ≠ 59

/-- At position `e` of the history thread `t` calls execve, the user asked for that, and the sample
was not lost. -/
def Executed (tbl : Syscalls.Syscalls) (given : List String) (hist : List Op) (e : Nat) (t : Task)
    (time : BitVec 64) (mem : Mem) (filename argv : BitVec 64) (scratch : KEvent) : Prop :=
  hist[e]? = some (.execve t time mem filename argv (some scratch) false) ∧ Asked tbl given 59

/-- There is something to print for position `e`. -/
def Due (tbl : Syscalls.Syscalls) (given : List String) (hist : List Op) (e : Nat) : Prop :=
  (∃ t c scratch, Completed tbl given hist e t c scratch) ∨
  (∃ t time mem filename argv scratch, Executed tbl given hist e t time mem filename argv scratch)

/-- The event, of system call `nr`, says what was done at position `e`. -/
def Tells (tbl : Syscalls.Syscalls) (given : List String) (hist : List Op) (e nr : Nat)
    (ev : TraceEvent Topology.Container) : Prop :=
  (∃ t c scratch, Completed tbl given hist e t c scratch ∧ nr = c.nr.toNat ∧ Spec.Daemon.Reports tbl t c ev) ∨
  (∃ t time mem filename argv scratch, Executed tbl given hist e t time mem filename argv scratch ∧
    nr = 59 ∧ Spec.Daemon.ReportsExec tbl t time mem filename ev)

/-- Task names are 16 bytes and the event buffer has the layout of the C structure. -/
def SaneOp : Op → Prop
  | .exit t _ _ _ _ _ scratch _ => t.comm.length = 16 ∧ ∀ s, scratch = some s → s.WF
  | .execve t _ _ _ _ scratch _ => t.comm.length = 16 ∧ ∀ s, scratch = some s → s.WF
  | _ => True

/-- Something process `tgid` does. -/
def DoneBy (tgid : BitVec 32) : Op → Prop
  | .enter t .. => t.tgid = tgid
  | .exit t .. => t.tgid = tgid
  | .execve t .. => t.tgid = tgid
  | .show _ => False

end Swoll.Spec.Host
