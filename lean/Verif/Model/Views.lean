import Verif.Model.Probe
import Verif.Model.Topology
import Verif.Model.Flags
import Verif.Model.JobArgs
/-
Model of what is made of the kernel metrics: the prometheus collector (cmd/prometheus.go), the
sankey chart and the word clouds of the server (cmd/server.go), and the tables of `swoll top`
(cmd/top.go).  The metrics are the list `QueryAll` returned; drawing the charts and exposing the
samples is not modelled.
-/
namespace Swoll.Views
open Swoll Swoll.Syscalls Swoll.Probe
open Swoll.Topology (Cache Container lookupContainer)
open Swoll.JobArgs (split)
open Swoll.Flags (errnoToString)

/-- One entry of `metrics.Metrics`, pkg/kernel/metrics/metrics.go:28-34. -/
abbrev Metric := MKey × MVal

/-- Rounding a natural number to a binary float of `p` significant bits, to nearest, ties to
even (IEEE 754): `float32(n)` for `p = 24`, `float64(n)` for `p = 53`.  Overflow is far above
any sum of 64-bit counts and is not modelled.
(the conversions at server.go:628-657, prometheus.go:70-92, top.go:121-122) -/
def roundTo (p n : Nat) : Nat :=
  if n < 2 ^ p then n
  else
    let s := Nat.log2 n + 1 - p
    let q := n / 2 ^ s
    let r := n % 2 ^ s
    (if 2 ^ s < 2 * r ∨ (2 * r = 2 ^ s ∧ q % 2 = 1) then q + 1 else q) * 2 ^ s

/-- `float32`. (server.go:628-657) -/
def f32 (n : Nat) : Nat := roundTo 24 n

/-- `float64`. (prometheus.go:70-92) -/
def f64 (n : Nat) : Nat := roundTo 53 n

/-- A whole number as a `float64`, of either sign. (top.go:82-87) -/
def f64i (z : Int) : Int := if z < 0 then -(f64 z.natAbs : Int) else (f64 z.natAbs : Int)

/-- `syscalls.Lookup(int(m.Syscall()))`, server.go:706, prometheus.go:68, top.go:493. -/
def syscallOf (tbl : Syscalls) (m : Metric) : Option Syscall := lookup tbl (.int (m.1.syscall.toNat : Int))

/-- `LookupContainer(ctx, m.PidNamespace())`, metrics.go:127-129. -/
def containerOf (cache : Cache) (m : Metric) : Option Container := lookupContainer cache (m.1.pidNs.toNat : Int)

/-- `types.Errno(m.Errno())`. (prometheus.go:75, server.go:524-543) -/
def errnoOf (m : Metric) : Int := (m.1.errno.toNat : Int)

/-! ### The sankey chart -/

/-- `metricOrderKey`, server.go:432-442. -/
inductive Ord where
  | group | cls | name | errno | ns | pod | ctr
  deriving DecidableEq, Repr

/-- The switch of `parseOrder`, server.go:450-465; other words are skipped. -/
def ordOf (tok : List Char) : Option Ord :=
  if tok = "class".toList ∨ tok = "cl".toList then some .cls
  else if tok = "gr".toList ∨ tok = "group".toList then some .group
  else if tok = "ns".toList ∨ tok = "namespace".toList then some .ns
  else if tok = "p".toList ∨ tok = "pod".toList then some .pod
  else if tok = "n".toList ∨ tok = "name".toList ∨ tok = "syscall".toList ∨ tok = "sc".toList then some .name
  else if tok = "e".toList ∨ tok = "error".toList ∨ tok = "errno".toList then some .errno
  else if tok = "c".toList ∨ tok = "container".toList then some .ctr
  else none

/-- `parseOrder`, server.go:446-469. -/
def parseOrder (order : List Char) : List Ord := (split ',' order).filterMap ordOf

/-- The order in force, server.go:597-625. -/
def orderFor (ns : String) (ord : List Char) : List Ord :=
  if ord = [] then
    if ns = "" then [.cls, .group, .ns, .pod, .name, .errno]
    else [.cls, .group, .pod, .ctr, .name, .errno]
  else parseOrder ord

/-- `ordVal`, server.go:672-690; `none`: a nil syscall is dereferenced. -/
def ordVal (sc : Option Syscall) (c : Container) (e : Int) : Ord → Option String
  | .group => sc.map (·.group)
  | .cls => sc.map (·.cls)
  | .name => sc.map (·.name)
  | .errno => some (errnoToString e)
  | .ns => some c.ns
  | .pod => some c.pod
  | .ctr => some c.name

/-- `charts.SankeyLink`. (Library, made at server.go:649-657.) -/
structure Link where
  src : String
  dst : String
  value : Nat
  deriving DecidableEq, Repr

/-- `nodes` and `links`, server.go:582-583. -/
structure Chart where
  nodes : List String := []
  links : List Link := []
  deriving DecidableEq, Repr

/-- `findLink` and the update or append of `addLink`, server.go:628-635, 649-657; the sum is
taken in `float32`. -/
def bumpLink : List Link → String → String → Nat → List Link
  | [], src, dst, count => [⟨src, dst, count⟩]
  | l :: ls, src, dst, count =>
    if l.src = src ∧ l.dst = dst then { l with value := f32 (l.value + count) } :: ls
    else l :: bumpLink ls src dst count

/-- `findNode` and the append, server.go:638-645, 659-665. -/
def addNode (nodes : List String) (name : String) : List String :=
  if name ∈ nodes then nodes else nodes ++ [name]

/-- `addLink`, server.go:648-666. -/
def addLink (ch : Chart) (src dst : String) (count : Nat) : Chart :=
  { nodes := addNode (addNode ch.nodes src) dst, links := bumpLink ch.links src dst count }

/-- The loop over the order for one metric, server.go:709-715: consecutive levels. -/
def addMetric (sc : Option Syscall) (c : Container) (e : Int) (count : Nat) : List Ord → Chart → Option Chart
  | a :: b :: rest, ch =>
    match ordVal sc c e a, ordVal sc c e b with
    | some src, some dst => addMetric sc c e count (b :: rest) (addLink ch src dst count)
    | _, _ => none
  | _, ch => some ch

/-- One round of the loop over the metrics, server.go:692-716. -/
def sankeyOne (tbl : Syscalls) (cache : Cache) (ns : String) (order : List Ord) (ch : Chart) (m : Metric) : Option Chart :=
  match containerOf cache m with
  | none => some ch
  | some c =>
    if ns ≠ "" ∧ c.ns ≠ ns then some ch
    else addMetric (syscallOf tbl m) c (errnoOf m) (f32 m.2.count.toNat) order ch

/-- `sankey`, server.go:581-725; `none`: the handler panics. -/
def sankey (tbl : Syscalls) (cache : Cache) (ns : String) (ord : List Char) (ms : List Metric) : Option Chart :=
  ms.foldlM (sankeyOne tbl cache ns (orderFor ns ord)) {}

/-! ### Word clouds -/

/-- `wordClouds`, server.go:471-477. -/
structure Clouds where
  errno : GoMap String (BitVec 64) := []
  cls : GoMap String (BitVec 64) := []
  ns : GoMap String (BitVec 64) := []
  deriving DecidableEq, Repr

/-- Adding to a word, e.g. server.go:499-503. -/
def bump (m : GoMap String (BitVec 64)) (w : String) (count : BitVec 64) : GoMap String (BitVec 64) :=
  match m.get w with
  | some v => m.set w (count + v)
  | none => m.set w count

/-- `updateErrno`, server.go:524-543; `types.OK` is 0. -/
def updateErrno (w : Clouds) (m : Metric) : Clouds :=
  if errnoOf m = 0 then w else { w with errno := bump w.errno (errnoToString (errnoOf m)) m.2.count }

/-- `updateNamespace`, server.go:506-522. -/
def updateNamespace (cache : Cache) (w : Clouds) (m : Metric) : Clouds :=
  match containerOf cache m with
  | none => w
  | some c => { w with ns := bump w.ns c.ns m.2.count }

/-- `updateClass`, server.go:488-504; here the number is looked up as a `uint32`. -/
def updateClass (tbl : Syscalls) (w : Clouds) (m : Metric) : Clouds :=
  match lookup tbl (.u32 m.1.syscall) with
  | none => w
  | some sc => { w with cls := bump w.cls sc.cls m.2.count }

/-- `updateMetric`, server.go:545-549. -/
def updateMetric (tbl : Syscalls) (cache : Cache) (w : Clouds) (m : Metric) : Clouds :=
  updateClass tbl (updateNamespace cache (updateErrno w m) m) m

/-- `updateMetrics`, server.go:551-558. -/
def updateMetrics (tbl : Syscalls) (cache : Cache) (w : Clouds) (ms : List Metric) : Clouds :=
  ms.foldl (updateMetric tbl cache) w

/-- A request for one of the chart pages, with the metrics and containers at that time: the
index (server.go:853-865), which updates the clouds, or one of the pages `/wc/errno`, `/wc/class`
and `/wc/ns` (872-885), which do not.  The index and a cloud page running at once would race on
the Go maps; requests are taken one after the other here. -/
structure Req where
  index : Bool
  ms : List Metric
  cache : Cache

/-- The clouds after a request; they are also what its page shows. (server.go:853-887) -/
def serve (tbl : Syscalls) (w : Clouds) (r : Req) : Clouds :=
  if r.index then updateMetrics tbl r.cache w r.ms else w

/-! ### Prometheus -/

/-- Which of the two descriptions, prometheus.go:31-42. -/
inductive Desc where
  | count | time
  deriving DecidableEq, Repr

/-- A constant metric with its label values, prometheus.go:70-92. -/
structure Sample where
  desc : Desc
  value : Nat
  labels : List String
  deriving DecidableEq, Repr

/-- The label values, prometheus.go:74-79, 86-91; `fmt.Sprintf("%v", ns)` is the decimal number. -/
def labels (sc : Syscall) (c : Container) (m : Metric) : List String :=
  [sc.name, c.pod, c.name, c.ns, sc.cls, sc.group, errnoToString (errnoOf m), toString m.1.pidNs.toNat]

/-- One round of the loop of `Collect`, prometheus.go:58-93; `none`: a nil syscall is
dereferenced, in a goroutine of the registry, which ends the process. -/
def collectOne (tbl : Syscalls) (cache : Cache) (m : Metric) : Option (List Sample) :=
  match containerOf cache m with
  | none => some []
  | some c =>
    match syscallOf tbl m with
    | none => none
    | some sc => some [⟨.count, f64 m.2.count.toNat, labels sc c m⟩, ⟨.time, f64 m.2.time.toNat, labels sc c m⟩]

/-- `Collect`, prometheus.go:51-94, of a worker with (`some`) or without a topology. -/
def collect (tbl : Syscalls) (topo : Option Cache) (ms : List Metric) : Option (List Sample) :=
  match topo with
  | none => some []
  | some cache => (ms.mapM (collectOne tbl cache)).map List.flatten

/-! ### `swoll top` -/

/-- `fixedRateArray`, top.go:70-73; the samples are whole numbers here. -/
structure Window where
  values : List Int
  elems : Nat
  deriving DecidableEq, Repr

/-- `newFixedRateArray`, top.go:75-80. -/
def newWindow (n : Nat) : Window := ⟨List.replicate n 0, n⟩

/-- `push`, top.go:82-87. -/
def Window.push (a : Window) (v : Int) : Window :=
  let vs := a.values ++ [v]
  { a with values := if a.elems < vs.length then vs.drop 1 else vs }

/-- `metricKey`, top.go:45-51. -/
structure AKey where
  pod : String := ""
  ns : String := ""
  ctr : String := ""
  sc : String := ""
  err : String := ""
  deriving DecidableEq, Repr

/-- `metricVal`, top.go:53-57: the counter, and what was marked on the meter in total. -/
structure AVal where
  count : Int := 0
  marked : Int := 0
  deriving DecidableEq, Repr

/-- `aggMetrics`, top.go:64. -/
abbrev Agg := GoMap AKey AVal

/-- The effect of naming one key, top.go:102-115. -/
def keep (k : AKey) (n : AKey) (key : String) : AKey :=
  if key = "pod" then { n with pod := k.pod }
  else if key = "ns" then { n with ns := k.ns }
  else if key = "ctr" then { n with ctr := k.ctr }
  else if key = "sc" then { n with sc := k.sc }
  else if key = "err" then { n with err := k.err }
  else n

/-- Adding to a row: `Inc` and `Mark`, top.go:37-39, 121-122, 504-505. -/
def AVal.inc (v : AVal) (d : Int) : AVal := ⟨f64i (v.count + d), v.marked + d⟩

/-- One round of the loop of `mergeStatsByKey`, top.go:95-123. -/
def mergeOne (erronly : Bool) (keys : List String) (ret : Agg) (e : AKey × AVal) : Agg :=
  if erronly = true ∧ e.1.err = "OK" then ret
  else
    let nkey := keys.foldl (keep e.1) {}
    let ret := if ret.has nkey then ret else ret.set nkey {}
    ret.set nkey (((ret.get nkey).getD {}).inc e.2.count)

/-- `mergeStatsByKey`, top.go:89-127, over the rows in the order Go iterates them. -/
def merge (erronly : Bool) (keys : List String) (m : Agg) : Agg := m.foldl (mergeOne erronly keys) []

/-- `mkaggMetricKey`, top.go:267-276; `(*Syscall).String` of nil is "" (syscalls.go:28-34). -/
def aggKey (c : Container) (sc : Option Syscall) (e : Int) : AKey :=
  ⟨c.pod, c.ns, c.name, (sc.map (·.name)).getD "", errnoToString e⟩

/-- What one tick works on: the table and the two sums, top.go:484-485. -/
structure Tick where
  agg : Agg
  total : Int := 0
  errors : Int := 0
  deriving DecidableEq, Repr

/-- One round of the loop of a tick with `lookupOrCreate`, top.go:301-318, 486-507. -/
def tickOne (tbl : Syscalls) (cache : Cache) (t : Tick) (m : Metric) : Tick :=
  match containerOf cache m with
  | none => t
  | some c =>
    let key := aggKey c (syscallOf tbl m) (errnoOf m)
    let val := (t.agg.get key).getD {}
    let diff := f64i ((f64 m.2.count.toNat : Int) - val.count)
    { agg := t.agg.set key (val.inc diff)
      total := if errnoOf m ≠ 0 then t.total else f64i (t.total + diff)
      errors := if errnoOf m ≠ 0 then f64i (t.errors + diff) else t.errors }

/-- A tick, top.go:483-507. -/
def tick (tbl : Syscalls) (agg : Agg) (cache : Cache) (ms : List Metric) : Tick :=
  ms.foldl (tickOne tbl cache) { agg := agg }

end Swoll.Views
