import Verif.Util.GoMap
/-
Model of pkg/topology/topology.go (the container cache) and of the informer callbacks of
pkg/topology/kubernetes.go.
-/
namespace Swoll.Topology
open Swoll

/-- `types.Container`, pkg/types/container.go:5-15; a nil label map is `none`. -/
structure Container where
  id : String
  pod : String
  sandbox : String
  name : String
  image : String
  ns : String
  labels : Option (GoMap String String)
  pid : Int
  pidns : Int
  deriving DecidableEq, Repr

/-- `Copy`, container.go:25-43 (a fresh label map with the same entries). -/
def Container.copy (c : Container) : Container :=
  { id := c.id, pod := c.pod, sandbox := c.sandbox, name := c.name, image := c.image, ns := c.ns,
    labels := some ((c.labels.getD []).foldl (fun m e => GoMap.set m e.1 e.2) []),
    pid := c.pid, pidns := c.pidns }

/-- `ObservationEvent`, topology.go:41-44; types are Go ints, 0 is start and 1 is stop
(topology.go:17-20). -/
structure Event where
  type : Int
  container : Option Container
  deriving DecidableEq, Repr

/-- `EventTypeStart`, topology.go:17-20. -/
def typeStart : Int := 0
/-- `EventTypeStop`, topology.go:17-20. -/
def typeStop : Int := 1

/-- Errors of `processEvent`, topology.go:22-39. -/
inductive Err where
  | nilEvent | nilContainer | badNamespace | unknownType
  deriving DecidableEq, Repr

/-- The cache `map[int]*types.Container`, topology.go:54-58.  Containers are values here:
nothing in the package writes through a cached pointer. -/
abbrev Cache := GoMap Int Container

/-- A call of the user callback: what it is told, and the cache it would see (the lock is
released around the call, topology.go:131-135, 138-142). -/
structure Call where
  type : Int
  container : Container
  cache : Cache
  deriving DecidableEq, Repr

/-- `processEvent`, topology.go:114-148, with (`hasCb`) or without a callback. -/
def processEvent (hasCb : Bool) (cache : Cache) (ev : Option Event) : Cache × List Call × Option Err :=
  match ev with
  | none => (cache, [], some .nilEvent)
  | some ev =>
    match ev.container with
    | none => (cache, [], some .nilContainer)
    | some c =>
      if c.pidns ≤ 0 then (cache, [], some .badNamespace)
      else if ev.type = typeStart then
        let cache1 := GoMap.set cache c.pidns c
        (cache1, if hasCb then [⟨typeStart, c, cache1⟩] else [], none)
      else if ev.type = typeStop then
        let cache1 := GoMap.del cache c.pidns
        (cache1, if hasCb then [⟨typeStop, c, cache1⟩] else [], none)
      else (cache, [], some .unknownType)

/-- The loop of `Run`, topology.go:83-100, over the events it receives: final cache, callback
calls and logged errors, in order. -/
def run (hasCb : Bool) : Cache → List (Option Event) → Cache × List Call × List Err
  | cache, [] => (cache, [], [])
  | cache, ev :: evs =>
    let r := processEvent hasCb cache ev
    let s := run hasCb r.1 evs
    (s.1, r.2.1 ++ s.2.1, r.2.2.toList ++ s.2.2)

/-- `LookupContainer`, topology.go:102-112; `none` is ErrContainerNotFound. -/
def lookupContainer (cache : Cache) (pidns : Int) : Option Container :=
  match GoMap.get cache pidns with
  | some c => some c.copy
  | none => none

/-! ### The Kubernetes observer -/

/-- A container as listed by the CRI, with what `getContainerPid` (kubernetes.go:212-233) and
`getPidNamespace` (ns.go:25-27) answer for it; `none` is an error. -/
structure CriContainer where
  id : String
  image : String
  labels : GoMap String String
  pid : Option Int
  pidns : Option Int
  deriving DecidableEq, Repr

/-- A label, "" when absent (Go map lookup). (kubernetes.go:271-324) -/
def label (c : CriContainer) (k : String) : String := (GoMap.get c.labels k).getD ""

/-- One round of the loop of `criContainers`, kubernetes.go:271-324, with the optional match
(pod, namespace); `none` is `continue`. -/
def criOne (m : Option (String × String)) (c : CriContainer) : Option Container :=
  let pod := label c "io.kubernetes.pod.name"
  let kns := label c "io.kubernetes.pod.namespace"
  let name := label c "io.kubernetes.container.name"
  let skip := match m with
    | some (p, n) => (pod == "" || kns == "") || (p != pod || n != kns)
    | none => false
  if skip then none
  else
    match c.pid with
    | none => none
    | some pid =>
      match c.pidns with
      | none => none
      | some pidns =>
        some { id := c.id, pod := pod, sandbox := "", name := name, image := c.image, ns := kns,
               labels := some c.labels, pid := pid, pidns := pidns }

/-- `criContainers`, kubernetes.go:242-327, given the answer of the CRI (`none`: connection or
RPC error). -/
def criContainers (m : Option (String × String)) (cri : Option (List CriContainer)) : Option (List Container) :=
  cri.map (fun l => l.filterMap (criOne m))

/-- `Containers`, kubernetes.go:330-332. -/
def containers (cri : Option (List CriContainer)) : Option (List Container) := criContainers none cri

/-- What the informer callbacks read of a pod: name, namespace and phase. (kubernetes.go:372-447) -/
structure Pod where
  name : String
  ns : String
  phase : String
  deriving DecidableEq, Repr

/-- `containersForPod`, kubernetes.go:348-357; an error is logged and gives no containers. -/
def containersForPod (p : Pod) (cri : Option (List CriContainer)) : List Container :=
  (criContainers (some (p.name, p.ns)) cri).getD []

/-- An informer notification together with the state of the CRI at that time.
(kubernetes.go:372-447) -/
inductive Note where
  | add (p : Pod) (cri : Option (List CriContainer))
  | update (old new : Pod) (cri : Option (List CriContainer))
  | delete (p : Pod) (cri : Option (List CriContainer))
  deriving DecidableEq, Repr

/-- The key of the phase cache, kubernetes.go:401, 415. -/
def podKey (p : Pod) : String := p.name ++ "." ++ p.ns

/-- The three informer callbacks, kubernetes.go:372-447, on `phasedCache`; the result is the
new cache and the events sent. -/
def observe (pc : GoMap String (List Container)) : Note → GoMap String (List Container) × List Event
  | .add p cri => (pc, (containersForPod p cri).map (fun c => ⟨typeStart, some c⟩))
  | .update old new cri =>
    let out := if old.phase = "Pending" ∧ new.phase = "Running" then
        (containersForPod new cri).map (fun c => ⟨typeStart, some c⟩)
      else []
    let pc1 := if old.phase = "Running" ∧ new.phase = "Running" then
        if GoMap.has pc (podKey new) then pc
        else
          let ctrs := containersForPod new cri
          if ctrs.length > 0 then GoMap.set pc (podKey new) ctrs else pc
      else pc
    (pc1, out)
  | .delete p cri =>
    match GoMap.get pc (podKey p) with
    | some ctrs => (GoMap.del pc (podKey p), ctrs.map (fun c => ⟨typeStop, some c⟩))
    | none => (pc, (containersForPod p cri).map (fun c => ⟨typeStop, some c⟩))

/-- A whole run of the observer: the events per notification. (kubernetes.go:372-447) -/
def observeAll : GoMap String (List Container) → List Note → List (List Event)
  | _, [] => []
  | pc, n :: ns => (observe pc n).2 :: observeAll (observe pc n).1 ns

/-- The phase cache after notifications. (kubernetes.go:372-447) -/
def cacheAfter (notes : List Note) : GoMap String (List Container) := notes.foldl (fun pc n => (observe pc n).1) []

/-! ### Observer options -/

/-- The configuration of a `Kubernetes` observer, kubernetes.go:27-37, and whether it holds
client connections. -/
structure Observer where
  criSocket : String
  kubeConfig : String
  ns : String
  labelSelector : String
  fieldSelector : String
  procRoot : String
  connected : Bool
  deriving DecidableEq, Repr

/-- The options, kubernetes.go:43-102; for the CRI socket, whether the check of the path
succeeds. -/
inductive Option' where
  | namespace (s : String)
  | procRoot (s : String)
  | cri (s : String) (ok : Bool)
  | config (s : String)
  | labels (s : String)
  | fields (s : String)
  deriving DecidableEq, Repr

/-- One option, kubernetes.go:43-102. -/
def applyOpt (k : Observer) : Option' → Option Observer
  | .namespace s => some { k with ns := s }
  | .procRoot s => some { k with procRoot := s }
  | .cri s ok => if ok then some { k with criSocket := s } else none
  | .config s => some { k with kubeConfig := s }
  | .labels s => some { k with labelSelector := s }
  | .fields s => some { k with fieldSelector := s }

/-- The options in order, kubernetes.go:105-116. -/
def applyOpts (k : Observer) : List Option' → Option Observer
  | [] => some k
  | o :: os =>
    match applyOpt k o with
    | none => none
    | some k1 => applyOpts k1 os

/-- `Copy`, kubernetes.go:118-136. -/
def copyObserver (k : Observer) (opts : List Option') : Option Observer :=
  applyOpts { k with connected := false } opts

/-- The observer derived by `Job.Run`, job.go:92-95, from the job's namespace and its
selectors printed as strings. -/
def jobObserver (k : Observer) (ns labels fields : String) : Option Observer :=
  copyObserver k [.namespace ns, .labels labels, .fields fields]

end Swoll.Topology
