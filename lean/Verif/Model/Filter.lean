import Verif.Model.Syscalls
import Verif.Util.BpfIter
/-
Model of pkg/kernel/filter.go (user space) and of the filter evaluation in
internal/bpf/probe.c (kernel).  Both sides share the two BPF hash maps
`swoll_filter_config` and `swoll_nfilter`.
-/
namespace Swoll.Filter
open Swoll Swoll.Syscalls

/-- `filterKey`, pkg/kernel/filter.go:16-22 = `struct filter_key`, probe.c:186-192.
The `pad` member is always zero on both sides and is left out. -/
structure FilterKey where
  flags : BitVec 16
  pidns : BitVec 32
  thrid : BitVec 32
  syscall : BitVec 32
  deriving DecidableEq, Repr

/-- `filterVal`, pkg/kernel/filter.go:24-31 = `struct filter_val`, probe.c:194-200
(padding left out). -/
structure FilterVal where
  sampleRate : BitVec 32
  sampleCount : BitVec 32
  hits : BitVec 64
  action : BitVec 8
  deriving DecidableEq, Repr

/-- pkg/kernel/filter.go:35, probe.c:176 -/
def fmodeEnabled : BitVec 16 := 1#16
/-- pkg/kernel/filter.go:36, probe.c:177 -/
def fmodeSyscall : BitVec 16 := 2#16
/-- pkg/kernel/filter.go:37, probe.c:178 -/
def fmodeMetrics : BitVec 16 := 4#16
/-- pkg/kernel/filter.go:39, probe.c:182 -/
def ftypePid : BitVec 16 := 8192#16
/-- pkg/kernel/filter.go:40, probe.c:183 -/
def ftypePidNS : BitVec 16 := 16384#16
/-- pkg/kernel/filter.go:41, probe.c:184 -/
def ftypeSyscall : BitVec 16 := 32768#16
/-- pkg/kernel/filter.go:43, probe.c:170 -/
def factionAllow : BitVec 8 := 0#8
/-- pkg/kernel/filter.go:44, probe.c:171 -/
def factionDrop : BitVec 8 := 1#8

/-- `FilterRule`, pkg/kernel/filter.go:53-56. -/
structure Rule where
  key : FilterKey
  val : FilterVal
  deriving DecidableEq, Repr

/-- The zero `FilterRule` (`new(FilterRule)`, pkg/kernel/filter.go:151). -/
def Rule.zero : Rule := ⟨⟨0, 0, 0, 0⟩, ⟨0, 0, 0, 0⟩⟩

/-- `FilterRuleOption`, pkg/kernel/filter.go:66; `none` is an error return. -/
abbrev RuleOption := Rule → Option Rule

/-- `NewFilterRule`, pkg/kernel/filter.go:150-160. -/
def newFilterRule (opts : List RuleOption) : Option Rule :=
  opts.foldlM (fun r o => o r) Rule.zero

/-- `FilterRuleSetSyscall`, pkg/kernel/filter.go:171-182. -/
def setSyscall (tbl : Syscalls) (sc : Key) : RuleOption := fun r =>
  match lookup tbl sc with
  | none => none
  | some s => some { r with key := { r.key with
      syscall := BitVec.ofNat 32 s.nr, flags := r.key.flags ||| ftypeSyscall } }

/-- `FilterRuleSetSampleRate`, pkg/kernel/filter.go:184-189; the Go `int` argument is given
by its 64 bit pattern. -/
def setSampleRate (rate : BitVec 64) : RuleOption := fun r =>
  some { r with val := { r.val with sampleRate := rate.setWidth 32 } }

/-- `FilterRuleSetPidNamespace`, pkg/kernel/filter.go:191-201. -/
def setPidNamespace (ns : Int) : RuleOption := fun r =>
  if ns = -1 then some r
  else some { r with key := { r.key with
    pidns := BitVec.ofInt 32 ns, flags := r.key.flags ||| ftypePidNS } }

/-- `FilterRuleSetPid`, pkg/kernel/filter.go:203-209. -/
def setPid (pid : Int) : RuleOption := fun r =>
  some { r with key := { r.key with
    thrid := BitVec.ofInt 32 pid, flags := r.key.flags ||| ftypePid } }

/-- `FilterRuleSetActionDrop`, pkg/kernel/filter.go:211-216. -/
def setActionDrop : RuleOption := fun r => some { r with val := { r.val with action := factionDrop } }

/-- `FilterRuleSetActionAllow`, pkg/kernel/filter.go:218-223. -/
def setActionAllow : RuleOption := fun r => some { r with val := { r.val with action := factionAllow } }

/-- `FilterRuleSetModeSyscall`, pkg/kernel/filter.go:225-230. -/
def setModeSyscall : RuleOption := fun r =>
  some { r with key := { r.key with flags := r.key.flags ||| fmodeSyscall } }

/-- `FilterRuleSetModeMetrics`, pkg/kernel/filter.go:232-237. -/
def setModeMetrics : RuleOption := fun r =>
  some { r with key := { r.key with flags := r.key.flags ||| fmodeMetrics } }

/-- The two BPF hash maps.  Map capacity (1024 / 65535 entries) is modelled only through the
fault flags of `addRule`. (probe.c:202-214) -/
structure KMaps where
  config : GoMap (BitVec 16) (BitVec 8)
  filter : GoMap FilterKey FilterVal

/-- Freshly loaded maps. (probe.c:202-214) -/
def KMaps.empty : KMaps := ⟨[], []⟩

/-- Which of the two map updates of `AddRule` the kernel refuses. (pkg/kernel/filter.go:107-134) -/
structure Faults where
  config : Bool := false
  filter : Bool := false

/-- The key rewriting at the start of `AddRule`, pkg/kernel/filter.go:103-105. -/
def normKey (k : FilterKey) : FilterKey :=
  if (k.flags &&& fmodeMetrics) ≠ 0 ∧ k.syscall = 0 then { k with syscall := -1 } else k

/-- `AddRule`, pkg/kernel/filter.go:102-137; the Boolean is "no error".  The bookkeeping
list `f.rules`, which is never read, is left out. -/
def addRule (m : KMaps) (r : Rule) (f : Faults := {}) : KMaps × Bool :=
  let key := normKey r.key
  if f.config then (m, false)
  else
    let m1 : KMaps := { m with config := GoMap.set m.config key.flags 1 }
    if f.filter then (m1, false)
    else ({ m1 with filter := GoMap.set m1.filter key r.val }, true)

/-- `DelRule`, pkg/kernel/filter.go:139-141; deleting an absent element is an error
(`bpf_map_delete_elem` gives ENOENT). -/
def delRule (m : KMaps) (r : Rule) : KMaps × Bool :=
  if GoMap.has m.filter r.key then ({ m with filter := GoMap.del m.filter r.key }, true)
  else (m, false)

/-- `Enable`, pkg/kernel/filter.go:143-148. -/
def enable (m : KMaps) : KMaps := { m with config := GoMap.set m.config fmodeEnabled 1 }

/-- `AddSyscall`, pkg/kernel/filter.go:241-252. -/
def addSyscall (tbl : Syscalls) (m : KMaps) (nr : Key) (ns : Int) (f : Faults := {}) : KMaps × Bool :=
  match newFilterRule [setModeSyscall, setSyscall tbl nr, setPidNamespace ns, setActionAllow] with
  | none => (m, false)
  | some r => addRule m r f

/-- `AddSampledSyscall`, pkg/kernel/filter.go:256-268 (`rate uint64`). -/
def addSampledSyscall (tbl : Syscalls) (m : KMaps) (nr : Key) (ns : Int) (rate : BitVec 64)
    (f : Faults := {}) : KMaps × Bool :=
  match newFilterRule [setModeSyscall, setSyscall tbl nr, setPidNamespace ns,
      setSampleRate rate, setActionAllow] with
  | none => (m, false)
  | some r => addRule m r f

/-- `RemoveSyscall`, pkg/kernel/filter.go:273-284. -/
def removeSyscall (tbl : Syscalls) (m : KMaps) (nr : Key) (ns : Int) : KMaps × Bool :=
  match newFilterRule [setModeSyscall, setSyscall tbl nr, setPidNamespace ns, setActionAllow] with
  | none => (m, false)
  | some r => delRule m r

/-- `AddMetrics`, pkg/kernel/filter.go:289-299. -/
def addMetrics (m : KMaps) (ns : Int) (f : Faults := {}) : KMaps × Bool :=
  match newFilterRule [setModeMetrics, setPidNamespace ns, setActionAllow] with
  | none => (m, false)
  | some r => addRule m r f

/-- `RemoveMetrics`, pkg/kernel/filter.go:304-314. -/
def removeMetrics (m : KMaps) (ns : Int) : KMaps × Bool :=
  match newFilterRule [setModeMetrics, setPidNamespace ns, setActionAllow] with
  | none => (m, false)
  | some r => delRule m r

/-- `FilterSelf`, pkg/kernel/filter.go:318-331: the body is commented out. -/
def filterSelf (m : KMaps) : KMaps × Bool := (m, true)

/-- `swoll__is_filter_enabled`, probe.c:1013-1023. -/
def isFilterEnabled (m : KMaps) (type : BitVec 16) : Bool :=
  match GoMap.get m.config type with
  | some v => v ≠ 0
  | none => false

/-- The five keys tried by `swoll__run_nfilter`, probe.c:1416-1427. -/
def evalKeys (mode : BitVec 16) (pidns tid nr : BitVec 32) : List FilterKey :=
  [ ⟨mode ||| ftypePidNS, pidns, 0, -1⟩,
    ⟨mode ||| ftypePidNS ||| ftypePid ||| ftypeSyscall, pidns, tid, nr⟩,
    ⟨mode ||| ftypePidNS ||| ftypeSyscall, pidns, 0, nr⟩,
    ⟨mode ||| ftypePid ||| ftypeSyscall, 0, tid, nr⟩,
    ⟨mode ||| ftypeSyscall, 0, 0, nr⟩ ]

/-- Handling of a map hit, probe.c:1435-1443: new value and returned action. -/
def hit (v : FilterVal) : FilterVal × BitVec 8 :=
  let v1 := { v with hits := v.hits + 1 }
  if v1.sampleRate.toNat > 0 then
    let v2 := { v1 with sampleCount := v1.sampleCount + 1 }
    if v2.sampleCount.toNat > 1 ∧ v2.sampleCount.toNat % v2.sampleRate.toNat ≠ 0 then
      (v2, factionDrop)
    else (v2, v2.action)
  else (v1, v1.action)

/-- The evaluation loop, probe.c:1430-1448. -/
def evalLoop (m : KMaps) : List FilterKey → KMaps × BitVec 8
  | [] => (m, factionDrop)
  | k :: ks =>
    if isFilterEnabled m k.flags then
      match GoMap.get m.filter k with
      | some v => ({ m with filter := GoMap.set m.filter k (hit v).1 }, (hit v).2)
      | none => evalLoop m ks
    else evalLoop m ks

/-- `swoll__run_nfilter`, probe.c:1394-1449, for a task in pid namespace `pidns`, process id
(`pid_tgid >> 32`) `tid`, making syscall `nr`.  Updating the value through the map pointer is
modelled as a map update; concurrent increments from other CPUs are not modelled. -/
def runNfilter (m : KMaps) (mode : BitVec 16) (pidns tid nr : BitVec 32) : KMaps × BitVec 8 :=
  if isFilterEnabled m fmodeEnabled then evalLoop m (evalKeys mode pidns tid nr)
  else (m, factionDrop)

/-- `GetRunning`, pkg/kernel/filter.go:79-100: iterate the filter map from the zero key.
`fuel` bounds the rounds of the loop (`none` = not finished); map errors are not modelled. -/
def getRunning (filter : GoMap FilterKey FilterVal) (fuel : Nat) : Option (List Rule) :=
  (BpfIter.iterate filter fuel ⟨0, 0, 0, 0⟩).map (·.map (fun e => ⟨e.1, e.2⟩))

/-- Operations of the filter API and kernel filter evaluations.
(pkg/kernel/filter.go:102-331, probe.c:1394-1449) -/
inductive Op where
  | addSyscall (nr : Key) (ns : Int) (f : Faults)
  | addSampled (nr : Key) (ns : Int) (rate : BitVec 64) (f : Faults)
  | removeSyscall (nr : Key) (ns : Int)
  | addMetrics (ns : Int) (f : Faults)
  | removeMetrics (ns : Int)
  | enable
  /-- a kernel evaluation in syscall mode -/
  | callEvent (pidns tid nr : BitVec 32)
  /-- a kernel evaluation in metrics mode -/
  | metricsEvent (pidns tid nr : BitVec 32)

/-- One operation; the Boolean is "no error" for API calls and "not dropped" for evaluations
(all callers compare with DROP: probe.c:1539, 2565, 2746). -/
def step (tbl : Syscalls) (m : KMaps) : Op → KMaps × Bool
  | .addSyscall nr ns f => addSyscall tbl m nr ns f
  | .addSampled nr ns rate f => addSampledSyscall tbl m nr ns rate f
  | .removeSyscall nr ns => removeSyscall tbl m nr ns
  | .addMetrics ns f => addMetrics m ns f
  | .removeMetrics ns => removeMetrics m ns
  | .enable => (enable m, true)
  | .callEvent pidns tid nr =>
    let r := runNfilter m fmodeSyscall pidns tid nr
    (r.1, r.2 ≠ factionDrop)
  | .metricsEvent pidns tid nr =>
    let r := runNfilter m fmodeMetrics pidns tid nr
    (r.1, r.2 ≠ factionDrop)

/-- Run a history of operations, collecting the outcomes in order.
(pkg/kernel/filter.go:102-331, probe.c:1394-1449) -/
def run (tbl : Syscalls) : KMaps → List Op → KMaps × List Bool
  | m, [] => (m, [])
  | m, o :: os =>
    let r := step tbl m o
    let r2 := run tbl r.1 os
    (r2.1, r.2 :: r2.2)

end Swoll.Filter
