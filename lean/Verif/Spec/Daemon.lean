import Verif.Model.Daemon
import Verif.Spec.Hub
import Verif.Spec.Topology
import Verif.Spec.Hash
import Verif.Spec.Event
import Verif.Spec.Probe
import Verif.Spec.PubSub
/-
What users expect of the running daemon, in terms of what has happened: which calls threads made,
which jobs are registered, which containers live, who is attached to what.
-/
namespace Swoll.Spec.Daemon
open Swoll Swoll.Daemon
open Swoll.Event (Task Mem KEvent TraceEvent)
open Swoll.Spec.Hub (Reg)

/-! ### Jobs, containers and users -/

/-- Effect of an operation on the registrations. -/
def regStep (rs : List Reg) : Op → List Reg
  | .push j ns nr => rs ++ [⟨j, ns, nr⟩]
  | .delete id => rs.filter (fun r => r.job.id ≠ id)
  | _ => rs

/-- The registrations "this job wants this syscall of this pid namespace" after a history. -/
def registrations (hist : List Op) : List Reg := hist.foldl regStep []

/-- The registrations of a pair. -/
def wanting (hist : List Op) (ns nr : Int) : List Reg :=
  (registrations hist).filter (fun r => r.ns = ns ∧ r.nr = nr)

/-- What the observer says. -/
def notice : Op → Option (Option Topology.Event)
  | .topo ev => some ev
  | _ => none

/-- The container that lives in a pid namespace after a history. -/
def containerOf (hist : List Op) (ns : Int) : Option Topology.Container :=
  Spec.Topology.resident (hist.filterMap notice) ns

/-- What a user is attached to. -/
inductive Target where
  | path (components : List String)
  | job (id : String)
  deriving DecidableEq, Repr

/-- An attached user. -/
structure User where
  token : Nat
  target : Target
  deriving DecidableEq, Repr

/-- Effect of an operation on (number of attachments so far, attached users). -/
def userStep (s : Nat × List User) : Op → Nat × List User
  | .attachPath paths _ => (s.1 + 1, s.2 ++ [⟨s.1, .path paths⟩])
  | .attachTrace id _ => (s.1 + 1, s.2 ++ [⟨s.1, .job id⟩])
  | .detach h => (s.1, s.2.filter (fun u => u.token ≠ h))
  | _ => s

/-- The users attached after a history. -/
def users (hist : List Op) : List User := (hist.foldl userStep (0, [])).2

/-- The attachment an operation ends. -/
def detaches : Op → Option Nat
  | .detach h => some h
  | _ => none

/-- Nobody detaches twice. -/
def DetachOnce (hist : List Op) : Prop := (hist.filterMap detaches).Nodup

/-- The names on an event's path. -/
def names (c : Topology.Container) (sc : Syscalls.Syscall) : List String := [c.ns, c.pod, c.name, sc.name]

/-- The checksum keeps apart all names involved: those given by users, the ids of the jobs and
those on the event's path. -/
def KeepsApart (crc : String → BitVec 64) (hist : List Op) (c : Topology.Container) (sc : Syscalls.Syscall) : Prop :=
  ∀ u ∈ users hist, match u.target with
    | .path ps => Spec.Hash.Separates crc (ps ++ names c sc)
    | .job id => ∀ r ∈ registrations hist, Spec.Hash.Separates crc [id, r.job.id]

/-! ### Calls -/

/-- Task names are 16 bytes, the event buffer has the layout of the C structure, and iterating a
map only reorders its entries. -/
def SaneOp : Op → Prop
  | .route o => ∀ i, (o i).Valid
  | .exit t _ _ _ _ _ scratch _ => t.comm.length = 16 ∧ ∀ s, scratch = some s → s.WF
  | .execve t _ _ _ _ scratch _ => t.comm.length = 16 ∧ ∀ s, scratch = some s → s.WF
  | _ => True

/-- Is the operation the end of a call of this thread? -/
def EndsCallOf (tgid pid : BitVec 32) : Op → Prop
  | .exit t .. => t.tgid = tgid ∧ t.pid = pid
  | _ => False

/-- The operation at position `e` of the history ends a call that the same thread began, as `t0`,
after `before`.  `c` says what call it was: number, registers and owner as at the beginning;
result, memory and times as measured. -/
def Made (hist : List Op) (e : Nat) (before : List Op) (t0 t : Task) (c : Event.Call) (scratch : KEvent) : Prop :=
  ∃ id m0 args between m1,
    hist.take e = before ++ .enter t0 id m0 c.start args false :: between ∧
    hist[e]? = some (.exit t id c.ret m1 c.finish c.mem (some scratch) false) ∧
    t0.tgid = t.tgid ∧ t0.pid = t.pid ∧ (∀ o ∈ between, ¬ EndsCallOf t.tgid t.pid o) ∧
    c.nr = id.setWidth 32 ∧ c.args = (fun i => args.getD i 0) ∧ c.uid = t0.uid ∧ c.gid = t0.gid

/-- The event says what the call `c` made by `t` was. -/
structure Reports (tbl : Syscalls.Syscalls) (t : Task) (c : Event.Call)
    (ev : TraceEvent Topology.Container) : Prop where
  syscall : ev.syscall = Syscalls.lookup tbl (.int c.nr.toNat)
  ids : ev.pid = t.pid.toNat ∧ ev.tid = t.tgid.toNat ∧ ev.cpid = t.nsPid.toNat ∧ ev.sid = t.sid.toInt
  owner : ev.uid = c.uid.toNat ∧ ev.gid = c.gid.toNat
  spaces : ev.pidNs = t.pidNs.toNat ∧ ev.utsNs = t.utsNs.toNat ∧ ev.mntNs = t.mntNs.toNat
  comm : Spec.Event.BeforeNul t.comm ev.comm
  times : ev.start = c.start.toInt ∧ ev.finish = c.finish.toInt
  args : ∀ f m, Spec.Event.meaning c.nr.toNat f = some m → (c.nr.toNat, f) ∉ Spec.Event.mismatches →
    Spec.Event.Sane c m → ∃ v, ev.argv.lookup f = some v ∧ Spec.Event.Means c m v
  result : c.nr.toNat ≠ Event.nr.sys_getcwd → 0 ≤ c.ret.toInt → c.ret.toInt < 2 ^ 31 →
    ev.ret = c.ret.toInt ∧ ev.error = 0
  errors : c.nr.toNat ≠ Event.nr.sys_getcwd → -4095 ≤ c.ret.toInt → c.ret.toInt < 2 ^ 31 →
    ev.error = Spec.Event.errorOf c.ret.toInt

/-- The event says what the execve of `t` was. -/
structure ReportsExec (tbl : Syscalls.Syscalls) (t : Task) (time : BitVec 64) (mem : Mem)
    (filename : BitVec 64) (ev : TraceEvent Topology.Container) : Prop where
  syscall : ev.syscall = Syscalls.lookup tbl (.int 59)
  ids : ev.pid = t.pid.toNat ∧ ev.tid = t.tgid.toNat ∧ ev.cpid = t.nsPid.toNat ∧ ev.sid = t.sid.toInt
  owner : ev.uid = t.uid.toNat ∧ ev.gid = t.gid.toNat
  spaces : ev.pidNs = t.pidNs.toNat ∧ ev.utsNs = t.utsNs.toNat ∧ ev.mntNs = t.mntNs.toNat
  comm : Spec.Event.BeforeNul t.comm ev.comm
  start : ev.start = time.toInt
  file : (∀ i < 128, (mem (filename.toNat + i)).isSome) →
    ∃ s, ev.argv.lookup "filename" = some (.str s) ∧ Spec.Event.CStringAt mem filename.toNat 128 s

/-- Somebody asked for the calls `nr` of pid namespace `ns`, or of every namespace. -/
def Requested (tbl : Syscalls.Syscalls) (hist : List Op) (ns nr : BitVec 32) : Prop :=
  ∃ k n s, ((∃ f, Op.addSyscall k n f ∈ hist) ∨ (∃ r f, Op.addSampled k n r f ∈ hist)) ∧
    Syscalls.lookup tbl k = some s ∧ BitVec.ofNat 32 s.nr = nr ∧ (n = -1 ∨ BitVec.ofInt 32 n = ns)

/-- The rule every hub starts with: `set_tid_address` in pid namespace 0, which no task is in. -/
def Stub (tbl : Syscalls.Syscalls) (ns nr : BitVec 32) : Prop :=
  ns = 0 ∧ ∃ s, Syscalls.lookup tbl (.str "sys_set_tid_address") = some s ∧ BitVec.ofNat 32 s.nr = nr

/-! ### Deliveries -/

/-- At position `k` of the history the subscription `tok` is handed the event. -/
def Delivered (tbl : Syscalls.Syscalls) (crc : String → BitVec 64) (srt : List PubSub.Env → List PubSub.Env)
    (hist : List Op) (k tok : Nat) (ev : TraceEvent Topology.Container) : Prop :=
  ∃ o d d' out, hist[k]? = some o ∧ run tbl crc srt (fresh tbl) (hist.take k) = some d ∧
    step tbl crc srt d o = some (d', out) ∧ (tok, ev) ∈ out

/-- At position `k` of the history the daemon hands out the event, to whoever wants it. -/
def Routes (tbl : Syscalls.Syscalls) (crc : String → BitVec 64) (srt : List PubSub.Env → List PubSub.Env)
    (hist : List Op) (k : Nat) (ev : TraceEvent Topology.Container) : Prop :=
  ∃ o d, hist[k]? = some (.route o) ∧ run tbl crc srt (fresh tbl) (hist.take k) = some d ∧ d.msg = some ev

/-- How often at position `k` the subscription `tok` is handed the event. -/
def Handed (tbl : Syscalls.Syscalls) (crc : String → BitVec 64) (srt : List PubSub.Env → List PubSub.Env)
    (hist : List Op) (k tok : Nat) (ev : TraceEvent Topology.Container) (n : Nat) : Prop :=
  ∃ o d d' out, hist[k]? = some o ∧ run tbl crc srt (fresh tbl) (hist.take k) = some d ∧
    step tbl crc srt d o = some (d', out) ∧ out.count (tok, ev) = n

/-- What the operation at position `e` of the history reports: a call that somebody asked for, or an
execve. -/
def TrueOf (tbl : Syscalls.Syscalls) (hist : List Op) (e : Nat) (ev : TraceEvent Topology.Container) : Prop :=
  (∃ before t0 t c scratch, Made hist e before t0 t c scratch ∧ Reports tbl t c ev ∧
    (Requested tbl before t0.pidNs c.nr ∨ Stub tbl t0.pidNs c.nr)) ∨
  (∃ t time mem filename argv scratch, hist[e]? = some (.execve t time mem filename argv (some scratch) false) ∧
    ReportsExec tbl t time mem filename ev ∧
    (Requested tbl (hist.take e) t.pidNs 59 ∨ Stub tbl t.pidNs 59))

/-- Does the event concern a user attached to this? A path names the first components of the event;
a job id is one of a job registered for the call; the empty id stands for all jobs. -/
def Concerns (hist : List Op) (ev : TraceEvent Topology.Container) (c : Topology.Container)
    (sc : Syscalls.Syscall) : Target → Prop
  | .path ps => Spec.Hash.meant ps <+: Spec.Hash.meant (names c sc)
  | .job id => id = "" ∨ ∃ r ∈ wanting hist ev.pidNs sc.nr, r.job.id = id

/-! ### Coverage -/

/-- Is the operation the beginning of a call of this thread? -/
def BeginsCallOf (tgid pid : BitVec 32) : Op → Prop
  | .enter t .. => t.tgid = tgid ∧ t.pid = pid
  | _ => False

/-- Pid namespaces are positive 32 bit numbers larger than any syscall number. -/
def SanePairs : Op → Prop
  | .push _ ns nr => Spec.Hub.SanePair ns nr
  | .swap _ ns nr => Spec.Hub.SanePair ns nr
  | _ => True

/-- The operation takes out the kernel rule "calls `nr` of namespace `ns`", or gives it a rate. -/
def Disturbs (tbl : Syscalls.Syscalls) (ns nr : Int) : Op → Prop
  | .removeSyscall k n => ∃ s, Syscalls.lookup tbl k = some s ∧ (s.nr : Int) = nr ∧ BitVec.ofInt 32 n = BitVec.ofInt 32 ns
  | .addSampled k n _ _ => ∃ s, Syscalls.lookup tbl k = some s ∧ (s.nr : Int) = nr ∧ BitVec.ofInt 32 n = BitVec.ofInt 32 ns
  | _ => False

/-- Job `j` registered for the pair, then added its rule to the kernel filter; the job still exists
and nothing took the rule out or gave it a rate. -/
def Covers (tbl : Syscalls.Syscalls) (hist : List Op) (j : Hub.Job) (ns nr : Int) : Prop :=
  ∃ pre mid post, hist = pre ++ .push j ns nr :: (mid ++ .addSyscall (.int nr) ns {} :: post) ∧
    (∀ o ∈ mid ++ post, o ≠ .delete j.id) ∧ ∀ o ∈ post, ¬ Disturbs tbl ns nr o

/-- The call that ended at position `e` is served: it is decoded at some later position, and if a
container then lives in the namespace, an event that `Says` what the call was is routed at a still
later position `k`.  Every user attached at that time to a path that names the first components of the
event is handed it once; users of other paths are not; every user of an unsampled job is handed it
once per registration of that job, and job `j` has a registration. -/
def Served (tbl : Syscalls.Syscalls) (crc : String → BitVec 64) (srt : List PubSub.Env → List PubSub.Env)
    (hist : List Op) (e ns nr : Nat) (sc : Syscalls.Syscall) (j : Hub.Job)
    (Says : TraceEvent Topology.Container → Prop) : Prop :=
  ∃ i, e < i ∧ hist[i]? = some .ingest ∧ ∀ c, containerOf (hist.take i) ns = some c →
    ∃ k ev, i < k ∧ Routes tbl crc srt hist k ev ∧ Says ev ∧ ev.container = some c.copy ∧
      ⟨j, ns, nr⟩ ∈ wanting (hist.take k) ns nr ∧
      (KeepsApart crc (hist.take k) c.copy sc → ∀ u ∈ users (hist.take k),
        (∀ ps, u.target = .path ps → Handed tbl crc srt hist k u.token ev
          (if Spec.Hash.meant ps <+: Spec.Hash.meant (names c.copy sc) then 1 else 0)) ∧
        (∀ id, u.target = .job id → id ≠ "" →
          (∀ r ∈ wanting (hist.take k) ns nr, r.job.id = id → r.job.rate ≤ 0) →
          Handed tbl crc srt hist k u.token ev
            ((wanting (hist.take k) ns nr).filter (fun r => r.job.id = id)).length))

/-! ### Sampled jobs -/

/-- At position `k` the daemon hands out an event of a call that job `j` is registered for. -/
def EventOf (tbl : Syscalls.Syscalls) (crc : String → BitVec 64) (srt : List PubSub.Env → List PubSub.Env)
    (hist : List Op) (j : Hub.Job) (k : Nat) : Prop :=
  ∃ ev sc, Routes tbl crc srt hist k ev ∧ ev.syscall = some sc ∧
    ⟨j, ev.pidNs, sc.nr⟩ ∈ registrations (hist.take k)

/-- The registration an operation makes. -/
def pushed : Op → Option Reg
  | .push j ns nr => some ⟨j, ns, nr⟩
  | _ => none

/-- Job `j` shares neither its identity nor its id with another job, registers at most once for each
pair, and whoever else registers for one of its pairs is not sampled or sampled at a higher rate. -/
structure RateApart (hist : List Op) (j : Hub.Job) : Prop where
  alone : ∀ j' ns nr, Op.push j' ns nr ∈ hist → j'.ref = j.ref ∨ j'.id = j.id → j' = j
  once : ∀ ns nr, (hist.filterMap pushed).count ⟨j, ns, nr⟩ ≤ 1
  higher : ∀ j' ns nr, Op.push j ns nr ∈ hist → Op.push j' ns nr ∈ hist → j' ≠ j → j'.rate = 0 ∨ j.rate < j'.rate

/-! ### Staying alive -/

/-- No task is in pid namespace 0. -/
def Placed : Op → Prop
  | .enter t .. => t.pidNs ≠ 0
  | .execve t .. => t.pidNs ≠ 0
  | _ => True

/-- Two jobs that want the same call do not have the same sampling rate. -/
def RatesApart (hist : List Op) : Prop :=
  ∀ j j' ns nr, Op.push j ns nr ∈ hist → Op.push j' ns nr ∈ hist → j.rate > 0 → j.rate = j'.rate → j.ref = j'.ref

/-! ### Metrics -/

/-- No call of the topology callback is refused by the kernel. -/
def Granted : Op → Prop
  | .act f => f.config = false ∧ f.filter = false
  | _ => True

/-- The observer announced a container in the namespace. -/
def Started (ns : BitVec 32) : Op → Prop
  | .topo (some ⟨0, some c⟩) => 0 < c.pidns ∧ BitVec.ofInt 32 c.pidns = ns
  | _ => False

/-- The observer reported the end of a container in the namespace. -/
def Stopped (ns : BitVec 32) : Op → Prop
  | .topo (some ⟨1, some c⟩) => 0 < c.pidns ∧ BitVec.ofInt 32 c.pidns = ns
  | _ => False

/-- Something runs in the namespace. -/
def RunsIn (ns : BitVec 32) : Op → Prop
  | .enter t .. => t.pidNs = ns
  | .exit t .. => t.pidNs = ns
  | _ => False

/-- Is the operation a completed call `nr` in namespace `ns` with this error number? -/
def completes (ns nr : BitVec 32) (e : Nat) : Op → Bool
  | .exit t id ret _ _ _ _ _ => t.pidNs == ns && id.setWidth 32 == nr && Spec.Probe.bucket ret == e
  | _ => false

/-- How many times the metrics say the call was made. -/
def count (d : Daemon) (ns nr : BitVec 32) (e : Nat) : BitVec 64 :=
  match GoMap.get d.metrics ⟨ns, nr, BitVec.ofNat 16 e⟩ with
  | some v => v.count
  | none => 0

end Swoll.Spec.Daemon
