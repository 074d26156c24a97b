import Verif.Model.DeepCopy
/-
What a holder of a pointer can see through it, what addresses the pointer leads to, and what the holder can
do with them.
-/
namespace Swoll.Spec.DeepCopy
open Swoll.DeepCopy

/-! What is seen. A nil slice or map and an empty one are different. -/

structure ReqView where
  key : String
  operator : String
  values : Option (List String)
  deriving Repr, DecidableEq

structure SelectorView where
  matchLabels : Option (List (String × String))
  matchExpressions : Option (List ReqView)
  deriving Repr, DecidableEq

structure MetaView where
  rest : String
  labels : Option (List (String × String))
  annotations : Option (List (String × String))
  deletion : Option Int
  finalizers : Option (List String)
  deriving Repr, DecidableEq

structure SpecView where
  labelSelector : SelectorView
  fieldSelector : SelectorView
  hostSelector : Option (List String)
  syscalls : Option (List String)
  duration : Int
  sampleRate : Int
  deriving Repr, DecidableEq

structure StatusView where
  state : String
  startTime : Option Int
  completionTime : Option Int
  jobID : String
  deriving Repr, DecidableEq

structure TraceView where
  typeMeta : String × String
  objectMeta : MetaView
  spec : SpecView
  status : StatusView
  deriving Repr, DecidableEq

structure ListView where
  typeMeta : String × String
  rest : String
  remaining : Option Int
  items : Option (List TraceView)
  deriving Repr, DecidableEq

def seeStrings (h : Heap) (s : Option Slice) : Option (List String) :=
  s.map fun s => window s (stringsAt h s.arr)
def seeReq (h : Heap) (r : Req) : ReqView := ⟨r.key, r.operator, seeStrings h r.values⟩
def seeSelector (h : Heap) (s : Selector) : SelectorView :=
  ⟨s.matchLabels.map (labelsAt h), s.matchExpressions.map fun s => (window s (reqsAt h s.arr)).map (seeReq h)⟩
def seeMeta (h : Heap) (m : ObjectMeta) : MetaView :=
  ⟨m.rest, m.labels.map (labelsAt h), m.annotations.map (labelsAt h), m.deletion.map (timeAt h),
    seeStrings h m.finalizers⟩
def seeSpec (h : Heap) (s : TraceSpec) : SpecView :=
  ⟨seeSelector h s.labelSelector, seeSelector h s.fieldSelector, seeStrings h s.hostSelector,
    seeStrings h s.syscalls, s.duration, s.sampleRate⟩
def seeStatus (h : Heap) (s : TraceStatus) : StatusView :=
  ⟨s.state, s.startTime.map (timeAt h), s.completionTime.map (timeAt h), s.jobID⟩
def seeTrace (h : Heap) (t : Trace) : TraceView :=
  ⟨t.typeMeta, seeMeta h t.objectMeta, seeSpec h t.spec, seeStatus h t.status⟩
def seeList (h : Heap) (l : TraceList) : ListView :=
  ⟨l.typeMeta, l.listMeta.rest, l.listMeta.remaining.map (countAt h),
    l.items.map fun s => (window s (tracesAt h s.arr)).map (seeTrace h)⟩

/-- What is at an address, followed all the way down. -/
inductive View
  | trace (t : TraceView)
  | list (l : ListView)
  | spec (s : SpecView)
  | status (s : StatusView)
  | other
  deriving Repr, DecidableEq

/-- What the holder of pointer `p` sees. -/
def see (h : Heap) (p : Nat) : View :=
  match h[p]? with
  | some (.trace t) => .trace (seeTrace h t)
  | some (.list l) => .list (seeList h l)
  | some (.spec s) => .spec (seeSpec h s)
  | some (.status s) => .status (seeStatus h s)
  | _ => .other

/-! The references a value holds. -/

def sliceRefs (s : Option Slice) : List Nat := s.toList.map Slice.arr
def selectorRefs (s : Selector) : List Nat := s.matchLabels.toList ++ sliceRefs s.matchExpressions
def metaRefs (m : ObjectMeta) : List Nat :=
  m.labels.toList ++ m.annotations.toList ++ m.deletion.toList ++ sliceRefs m.finalizers
def specRefs (s : TraceSpec) : List Nat :=
  selectorRefs s.labelSelector ++ selectorRefs s.fieldSelector ++ sliceRefs s.hostSelector ++
    sliceRefs s.syscalls
def statusRefs (s : TraceStatus) : List Nat := s.startTime.toList ++ s.completionTime.toList
def traceRefs (t : Trace) : List Nat := metaRefs t.objectMeta ++ specRefs t.spec ++ statusRefs t.status

/-- The addresses a cell mentions. -/
def refs : Cell → List Nat
  | .strings _ | .labels _ | .time _ | .count _ => []
  | .reqs l => l.flatMap fun r => sliceRefs r.values
  | .traces l => l.flatMap traceRefs
  | .trace t => traceRefs t
  | .list l => l.listMeta.remaining.toList ++ sliceRefs l.items
  | .spec s => specRefs s
  | .status s => statusRefs s

/-- An address that can be come by from `p`. -/
inductive Reach (h : Heap) (p : Nat) : Nat → Prop
  | here : Reach h p p
  | step : Reach h p a → h[a]? = some c → b ∈ refs c → Reach h p b

/-! What the type checker and the allocator of Go see to: an address has what its type says, and a slice lies
within its array. -/

def StringsOk (h : Heap) (s : Option Slice) : Prop :=
  ∀ x, s = some x → ∃ l, h[x.arr]? = some (.strings l) ∧ x.off + x.len ≤ l.length
def LabelsOk (h : Heap) (m : Option Nat) : Prop := ∀ a, m = some a → ∃ l, h[a]? = some (.labels l)
def TimeOk (h : Heap) (m : Option Nat) : Prop := ∀ a, m = some a → ∃ t, h[a]? = some (.time t)
def SelectorOk (h : Heap) (s : Selector) : Prop :=
  LabelsOk h s.matchLabels ∧
  ∀ x, s.matchExpressions = some x → ∃ l, h[x.arr]? = some (.reqs l) ∧ x.off + x.len ≤ l.length
def MetaOk (h : Heap) (m : ObjectMeta) : Prop :=
  LabelsOk h m.labels ∧ LabelsOk h m.annotations ∧ TimeOk h m.deletion ∧ StringsOk h m.finalizers
def SpecOk (h : Heap) (s : TraceSpec) : Prop :=
  SelectorOk h s.labelSelector ∧ SelectorOk h s.fieldSelector ∧ StringsOk h s.hostSelector ∧
    StringsOk h s.syscalls
def StatusOk (h : Heap) (s : TraceStatus) : Prop := TimeOk h s.startTime ∧ TimeOk h s.completionTime
def TraceOk (h : Heap) (t : Trace) : Prop := MetaOk h t.objectMeta ∧ SpecOk h t.spec ∧ StatusOk h t.status
def ListOk (h : Heap) (l : TraceList) : Prop :=
  (∀ a, l.listMeta.remaining = some a → ∃ n, h[a]? = some (.count n)) ∧
  ∀ x, l.items = some x → ∃ ts, h[x.arr]? = some (.traces ts) ∧ x.off + x.len ≤ ts.length

def CellOk (h : Heap) : Cell → Prop
  | .strings _ | .labels _ | .time _ | .count _ => True
  | .reqs l => ∀ r ∈ l, StringsOk h r.values
  | .traces l => ∀ t ∈ l, TraceOk h t
  | .trace t => TraceOk h t
  | .list l => ListOk h l
  | .spec s => SpecOk h s
  | .status s => StatusOk h s

/-- Every cell is in order. -/
def HeapOk (h : Heap) : Prop := ∀ (a : Nat) (c : Cell), h[a]? = some c → CellOk h c

/-! Two holders. Each knows some addresses. A holder can put a new cell somewhere, and then knows its
address, and can overwrite a cell it knows; in both it can mention addresses it knows. -/

structure Both where
  heap : Heap
  first : Nat → Prop
  second : Nat → Prop

/-- What one who knows `known` can do: the heap and the known addresses before and after. -/
inductive Act : Heap → (Nat → Prop) → Heap → (Nat → Prop) → Prop
  | new : (∀ r ∈ refs c, known r) → Act h known (h ++ [c]) (fun a => known a ∨ a = h.length)
  | write : known a → (∀ r ∈ refs c, known r) → Act h known (h.set a c) known

/-- The states the two can bring about, taking turns in any way. -/
inductive Later (s : Both) : Both → Prop
  | start : Later s s
  | first : Later s t → Act t.heap t.first h k → Later s ⟨h, k, t.second⟩
  | second : Later s t → Act t.heap t.second h k → Later s ⟨h, t.first, k⟩

/-- Two holders, of `p` and of `q`, each of whom knows what can be come by from their pointer. -/
def holders (h : Heap) (p q : Nat) : Both := ⟨h, Reach h p, Reach h q⟩

/-- Whatever the two do, what one does is never seen by the other: not through any pointer the other
knows. -/
def Separate (h : Heap) (p q : Nat) : Prop :=
  ∀ s, Later (holders h p q) s →
    (∀ h' k, Act s.heap s.first h' k → ∀ b, s.second b → see h' b = see s.heap b) ∧
    (∀ h' k, Act s.heap s.second h' k → ∀ a, s.first a → see h' a = see s.heap a)

/-- A copy: the same is seen through both pointers, what was there before is still there, and the holders of
the two are separate. -/
def Copy (h : Heap) (p : Nat) (h' : Heap) (q : Nat) : Prop :=
  see h' q = see h p ∧ (∀ a, a < h.length → h'[a]? = h[a]?) ∧ Separate h' p q

end Swoll.Spec.DeepCopy
