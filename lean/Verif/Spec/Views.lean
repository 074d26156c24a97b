import Verif.Model.Views
/-
What the views of the metrics should show.
-/
namespace Swoll.Spec.Views
open Swoll Swoll.Syscalls Swoll.Views
open Swoll.Topology (Cache Container)

/-- The metrics whose pid namespace is that of a known container, with the container; all of
them, or those of a Kubernetes namespace. -/
def resolved (cache : Cache) (ns : String) (ms : List Metric) : List (Container × Metric) :=
  ms.filterMap fun m =>
    (GoMap.get cache (m.1.pidNs.toNat : Int)).bind fun c => if ns = "" ∨ c.ns = ns then some (c, m) else none

/-- The syscall of a metric is in the tables. -/
def Known (tbl : Syscalls) (m : Metric) : Prop := ∃ sc, lookup tbl (.int (m.1.syscall.toNat : Int)) = some sc

instance (tbl : Syscalls) (m : Metric) : Decidable (Known tbl m) :=
  decidable_of_iff ((lookup tbl (.int (m.1.syscall.toNat : Int))).isSome = true) Option.isSome_iff_exists

/-- The words for the levels of the chart. -/
def levelWords : List (String × Ord) :=
  [("class", .cls), ("cl", .cls), ("group", .group), ("gr", .group), ("namespace", .ns), ("ns", .ns),
   ("pod", .pod), ("p", .pod), ("container", .ctr), ("c", .ctr), ("syscall", .name), ("sc", .name),
   ("name", .name), ("n", .name), ("errno", .errno), ("error", .errno), ("e", .errno)]

/-- Does a level of the chart show something about the syscall? -/
def aboutSyscall : Ord → Bool
  | .group | .cls | .name => true
  | _ => false

/-- What a level of the chart shows for a metric. -/
def shown (tbl : Syscalls) (x : Container × Metric) : Ord → String
  | .group => ((lookup tbl (.int (x.2.1.syscall.toNat : Int))).map (·.group)).getD ""
  | .cls => ((lookup tbl (.int (x.2.1.syscall.toNat : Int))).map (·.cls)).getD ""
  | .name => ((lookup tbl (.int (x.2.1.syscall.toNat : Int))).map (·.name)).getD ""
  | .errno => Flags.errnoToString (x.2.1.errno.toNat : Int)
  | .ns => x.1.ns
  | .pod => x.1.pod
  | .ctr => x.1.name

/-- Consecutive pairs. -/
def pairs {α : Type} (l : List α) : List (α × α) := l.zip l.tail

/-- The flows one metric stands for: between each level and the next. -/
def flows (tbl : Syscalls) (order : List Ord) (x : Container × Metric) : List (String × String) :=
  pairs (order.map (shown tbl x))

/-- How much flows from `src` to `dst`: the counts of the metrics, once for each level at which
they go from `src` to `dst`. -/
def weight (tbl : Syscalls) (order : List Ord) (xs : List (Container × Metric)) (src dst : String) : Nat :=
  (xs.map fun x => (flows tbl order x).count (src, dst) * x.2.2.count.toNat).sum

/-- The counts of some metrics together. -/
def total (xs : List (Container × Metric)) : Nat := (xs.map fun x => x.2.2.count.toNat).sum

/-- The count of the metrics that some word stands for. -/
def wordCount (word : Metric → Option String) (ms : List Metric) (w : String) : Nat :=
  ((ms.filter fun m => word m = some w).map fun m => m.2.count.toNat).sum

/-- The word for a metric in each of the three clouds. -/
def errnoWord (m : Metric) : Option String :=
  if m.1.errno = 0 then none else some (Flags.errnoToString (m.1.errno.toNat : Int))
def nsWord (cache : Cache) (m : Metric) : Option String :=
  (GoMap.get cache (m.1.pidNs.toNat : Int)).map (·.ns)
def clsWord (tbl : Syscalls) (m : Metric) : Option String :=
  (lookup tbl (.int (m.1.syscall.toNat : Int))).map (·.cls)

/-- What a cloud shows for a word, nothing counting as 0. -/
def shows (cloud : GoMap String (BitVec 64)) (w : String) : BitVec 64 := (GoMap.get cloud w).getD 0

/-- The label values a sample should carry. -/
def expectedLabels (sc : Syscall) (c : Container) (m : Metric) : List String :=
  [sc.name, c.pod, c.name, c.ns, sc.cls, sc.group, Flags.errnoToString (m.1.errno.toNat : Int),
   toString m.1.pidNs.toNat]

/-- A float64 holding a number: exact up to 2^53, off by at most one part in 2^53 beyond. -/
def Close (v n : Nat) : Prop := (n ≤ 2 ^ 53 → v = n) ∧ ((v : Int) - n).natAbs * 2 ^ 53 ≤ n

/-- A sample reports the count, or the time, of a metric. -/
def Reports (tbl : Syscalls) (d : Desc) (x : Container × Metric) (s : Sample) : Prop :=
  ∃ sc, lookup tbl (.int (x.2.1.syscall.toNat : Int)) = some sc ∧ s.desc = d ∧
    s.labels = expectedLabels sc x.1 x.2 ∧
    Close s.value (match d with | .count => x.2.2.count.toNat | .time => x.2.2.time.toNat)

/-- The sum of the counts of a table. -/
def sumCounts (m : Agg) : Int := (m.map (·.2.count)).sum

/-- The row a key belongs to when only some parts of it are kept. -/
def project (keys : List String) (k : AKey) : AKey :=
  { pod := if "pod" ∈ keys then k.pod else ""
    ns := if "ns" ∈ keys then k.ns else ""
    ctr := if "ctr" ∈ keys then k.ctr else ""
    sc := if "sc" ∈ keys then k.sc else ""
    err := if "err" ∈ keys then k.err else "" }

/-- The rows that are merged: all, or those of failed calls. -/
def counted (erronly : Bool) (m : Agg) : Agg := m.filter fun e => !(erronly && e.1.err == "OK")

/-- The row a metric is shown in: names of the container, of the syscall (empty when unknown)
and of the error. -/
def rowOf (tbl : Syscalls) (x : Container × Metric) : AKey :=
  { pod := x.1.pod, ns := x.1.ns, ctr := x.1.name
    sc := ((lookup tbl (.int (x.2.1.syscall.toNat : Int))).map (·.name)).getD ""
    err := Flags.errnoToString (x.2.1.errno.toNat : Int) }

/-- The count a table shows in a row, nothing counting as 0. -/
def countAt (agg : Agg) (k : AKey) : Int := ((GoMap.get agg k).map (·.count)).getD 0

end Swoll.Spec.Views
