import Verif.Model.Topology
import Verif.Model.JobArgs
/-
Where the observer of pkg/topology/kubernetes.go gets its notifications from: the pods the API server
knows, the selectors a watch is opened with (kubernetes.go:154-193), and the informer that turns the
watch into calls of the three callbacks (kubernetes.go:372-449).

The API server and the informer are libraries (Kubernetes 1.18, client-go 0.18.4); of them is modelled
what decides which callback is called when:
* The API server knows a pod by its namespace and name. A watch is told of every change of a pod that its
  selectors select before or after the change, in order, as long as the connection lasts.
* The informer keeps the pods it has handled. A pod it has not handled before is added, one it has is
  updated, whatever the watch calls it. Changes of one pod are handled in order; the changes of different
  pods in any order.
* When the connection is lost, the informer lists the selected pods and watches again. A pod that it has and
  that is no longer listed is deleted, but as its last state is not known the callback is not handed a pod.
-/
namespace Swoll.Cluster
open Swoll
open Swoll.JobArgs (Str Rules validKey validValue labelChar split setString)

/-- Namespace and name of a pod. (kubernetes.go:186-190) -/
abbrev Key := String × String

/-- What matters of a pod as the API server knows it. (kubernetes.go:186-190, 372-447) -/
structure Pod where
  ns : String
  name : String
  uid : Nat
  labels : GoMap Str Str
  /-- the fields pods can be selected by -/
  fields : GoMap Str Str
  phase : String
  deriving DecidableEq, Repr

/-- The key of a pod. (Library, used by kubernetes.go:372.) -/
def Pod.key (p : Pod) : Key := (p.ns, p.name)

/-- What the callbacks read of a pod. (kubernetes.go:372-447) -/
def Pod.view (p : Pod) : Topology.Pod := ⟨p.name, p.ns, p.phase⟩

/-- What the API server accepts: label keys and values, and the fields pods can be selected by.
(Library, used by kubernetes.go:176-184.) -/
structure Api where
  rules : Rules
  field : Str → Bool

/-- One requirement of a selector. (Library, used by kubernetes.go:176-184.) -/
inductive Req where
  | eq (k v : Str)
  | ne (k v : Str)
  | has (k : Str)
  | hasnt (k : Str)
  deriving DecidableEq, Repr

/-- A key, an operator and a value, `labels.Parse`: `k`, `!k`, `k=v`, `k==v` and `k!=v`. The forms with
`in`, `notin`, `<` and `>`, and spaces, which are not in the strings swoll makes of valid labels, are
refused here. (Library, used by kubernetes.go:176-179.) -/
def labelReq (r : Rules) (s : Str) : Option Req :=
  if s.head? = some '!' then (if validKey r s.tail then some (.hasnt s.tail) else none)
  else
    let k := s.takeWhile labelChar
    if validKey r k then
      match s.dropWhile labelChar with
      | [] => some (.has k)
      | '=' :: '=' :: v => if validValue r v then some (.eq k v) else none
      | '=' :: v => if validValue r v then some (.eq k v) else none
      | '!' :: '=' :: v => if validValue r v then some (.ne k v) else none
      | _ => none
    else none

/-- A part of a field selector, `fields.ParseSelector`: `k=v`, `k==v` and `k!=v`, for a field pods can be
selected by. The escapes of values, and the characters that need one, are left out.
(Library, used by kubernetes.go:181-183.) -/
def fieldReq (a : Api) (s : Str) : Option Req :=
  let k := s.takeWhile (fun c => c != '=' && c != '!')
  if a.field k then
    match s.dropWhile (fun c => c != '=' && c != '!') with
    | '=' :: '=' :: v => some (.eq k v)
    | '=' :: v => some (.eq k v)
    | '!' :: '=' :: v => some (.ne k v)
    | _ => none
  else none

/-- All requirements of a selector; the empty string has none. (Library, used by kubernetes.go:176-184.) -/
def reqs (f : Str → Option Req) (s : Str) : Option (List Req) :=
  if s = [] then some [] else (split ',' s).mapM f

/-- Do these labels meet the requirement? (Library, used by kubernetes.go:176-184.) -/
def Req.labels (m : GoMap Str Str) : Req → Bool
  | .eq k v => decide (m.get k = some v)
  | .ne k v => decide (m.get k ≠ some v)
  | .has k => (m.get k).isSome
  | .hasnt k => (m.get k).isNone

/-- Do these fields meet the requirement? A field that is not set is empty.
(Library, used by kubernetes.go:181-183.) -/
def Req.fields (m : GoMap Str Str) : Req → Bool
  | .eq k v => decide ((m.get k).getD [] = v)
  | .ne k v => decide ((m.get k).getD [] ≠ v)
  | .has _ => true
  | .hasnt _ => true

/-- Which pods a watch with the selectors of an observer is about; `none` if the API server refuses it.
(kubernetes.go:176-190) -/
def selects (a : Api) (o : Topology.Observer) : Option (Pod → Bool) :=
  match reqs (labelReq a.rules) o.labelSelector.toList, reqs (fieldReq a) o.fieldSelector.toList with
  | some ls, some fs =>
    some (fun p => (o.ns == "" || p.ns == o.ns) && ls.all (Req.labels p.labels) && fs.all (Req.fields p.fields))
  | _, _ => none

/-- Is the pod one the watch is about? (kubernetes.go:176-190) -/
def selected (a : Api) (o : Topology.Observer) (p : Pod) : Bool :=
  match selects a o with
  | some f => f p
  | none => false

/-! ### The informer -/

/-- What the informer has still to handle: a pod is there, a pod was deleted or no longer selected, a pod
was found missing. (Library, used by kubernetes.go:372-449.) -/
inductive Change where
  | upd (p : Pod)
  | del (p : Pod)
  | gone (k : Key)
  deriving DecidableEq, Repr

/-- Which pod a change is about. (Library, used by kubernetes.go:372-449.) -/
def Change.key : Change → Key
  | .upd p => p.key
  | .del p => p.key
  | .gone k => k

/-- Is the pod no longer there? (Library, used by kubernetes.go:372-449.) -/
def Change.ends : Change → Bool
  | .upd _ => false
  | .del _ => true
  | .gone _ => true

/-- An observer at work: its settings, whether it is connected, the pods it has handled, what it has still
to handle, the cache of its callbacks (kubernetes.go:370), and the events on their way to the topology
(topology.go:86). -/
structure Watcher where
  obs : Topology.Observer
  connected : Bool
  store : GoMap Key Pod
  queue : List Change
  phased : GoMap String (List Topology.Container)
  chan : List Topology.Event
  deriving DecidableEq, Repr

/-- An observer before its informer runs. (kubernetes.go:361-370) -/
def Watcher.new (o : Topology.Observer) : Watcher := ⟨o, false, [], [], [], []⟩

/-- A pod changes: the watch is told if it is connected and selects the pod before or after.
(Library, used by kubernetes.go:372-449.) -/
def Watcher.hears (a : Api) (w : Watcher) (old new : Option Pod) : Watcher :=
  if w.connected then
    match old.filter (selected a w.obs), new.filter (selected a w.obs) with
    | _, some p => { w with queue := w.queue ++ [.upd p] }
    | some p, none => { w with queue := w.queue ++ [.del p] }
    | none, none => w
  else w

/-- Is the last thing to be handled about a pod that it is no longer there?
(Library, used by kubernetes.go:372-449.) -/
def endsLast (q : List Change) (k : Key) : Bool :=
  match (q.filter (fun c => c.key == k)).getLast? with
  | some c => c.ends
  | none => false

/-- List and watch (again): every selected pod is to be handled, and every pod that the informer has, and
does not know to be gone, and that is not listed. (Library, used by kubernetes.go:372-449.) -/
def Watcher.list (a : Api) (pods : GoMap Key Pod) (w : Watcher) : Watcher :=
  if w.connected || (selects a w.obs).isNone then w
  else
    let there := (pods.map (·.2)).filter (selected a w.obs)
    let missing := (w.store.map (·.1)).filter (fun k => !(there.map Pod.key).contains k && !endsLast w.queue k)
    { w with connected := true, queue := w.queue ++ there.map .upd ++ missing.map .gone }

/-- The connection is lost. (Library, used by kubernetes.go:372-449.) -/
def Watcher.lose (w : Watcher) : Watcher := { w with connected := false }

/-- The first change about a pod, and what is left without it. (Library, used by kubernetes.go:372-449.) -/
def pop (k : Key) : List Change → Option (Change × List Change)
  | [] => none
  | c :: cs =>
    if c.key = k then some (c, cs)
    else match pop k cs with
      | none => none
      | some (d, ds) => some (d, c :: ds)

/-- What the callbacks send for a notification. (kubernetes.go:372-447) -/
def Watcher.note (w : Watcher) (n : Topology.Note) : Watcher :=
  let r := Topology.observe w.phased n
  { w with phased := r.1, chan := w.chan ++ r.2 }

/-- The informer handles the next change of a pod and calls a callback, while the runtime lists
`cri`; `none` is the failed type assertion of kubernetes.go:414-415, which ends the process.
(kubernetes.go:372-449) -/
def Watcher.handle (cri : Option (List Topology.CriContainer)) (w : Watcher) (k : Key) : Option Watcher :=
  match pop k w.queue with
  | none => some w
  | some (.upd p, q) =>
    let n := match w.store.get k with
      | some old => .update old.view p.view cri
      | none => .add p.view cri
    some (({ w with store := w.store.set k p, queue := q } : Watcher).note n)
  | some (.del p, q) =>
    some (({ w with store := w.store.del k, queue := q } : Watcher).note (.delete p.view cri))
  | some (.gone _, _) => none

/-! ### Selectors of traces -/

/-- The operators of match expressions. (Library, used by trace_types.go:37-44.) -/
inductive Oper where
  | isIn | notIn | exist | doesNotExist
  deriving DecidableEq, Repr

/-- `metav1.LabelSelectorRequirement`. (Library, used by trace_types.go:37-44.) -/
structure Expr where
  key : Str
  op : Oper
  values : List Str
  deriving DecidableEq, Repr

/-- `metav1.LabelSelector`. (Library, used by trace_types.go:37-44.) -/
structure Selector where
  matchLabels : GoMap Str Str
  matchExpressions : List Expr
  deriving DecidableEq, Repr

/-- The selectors of a `TraceSpec`, trace_types.go:38-39. -/
structure Sel where
  label : Selector
  field : Selector
  deriving DecidableEq, Repr

/-- The observer of a job in a namespace, job.go:92-98. -/
def jobObserver (parent : Topology.Observer) (ns : String) (s : Sel) : Option Topology.Observer :=
  Topology.jobObserver parent ns (String.ofList (setString s.label.matchLabels))
    (String.ofList (setString s.field.matchLabels))

/-- The observer of the server, server.go:785-792. -/
def serverObserver (cri config root : String) : Option Topology.Observer :=
  Topology.applyOpts ⟨"", "", "", "", "", "", false⟩
    [.cri cri true, .config config, .labels "swoll!=false", .procRoot root]

/-- The labels of the pod template as it is first written down, trace.go:52-54. -/
def templateLabels : GoMap Str Str := [("swoll".toList, "false".toList)]

/-- What becomes of the labels of the template: the map is replaced by a new one, trace.go:80-81. -/
def relabel (_ : GoMap Str Str) (trace : Str) : GoMap Str Str := GoMap.set [] "sw-job".toList trace

/-- The labels of the pods that run a trace for the controller, trace.go:45-81. -/
def clientPodLabels (trace : Str) : GoMap Str Str := relabel templateLabels trace

end Swoll.Cluster
