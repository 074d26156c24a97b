/-
The copies of the custom resource, api/v1alpha1/zz_generated.deepcopy.go and api/v1alpha1/trace_types.go:
what `DeepCopyInto`, `DeepCopy` and `DeepCopyObject` of `Trace`, `TraceList`, `TraceSpec` and `TraceStatus`
allocate, read and write.

Memory is a list of cells, an address is a position in it, `make` and `new` append a cell. A cell holds all
of an array, a map, or the value a pointer points at.

Simplifications: strings, durations and moments are values (Go never writes into them); a map is the list of
its entries; of the object metadata of the library the maps, the deletion time and the finalizers are
modelled, the rest of it is one string; its owner references and managed fields are left out.
-/
namespace Swoll.DeepCopy

/-- A slice that is not nil: the array it lies in, where in it, and how long it is. -/
structure Slice where
  arr : Nat
  off : Nat
  len : Nat
  deriving Repr, DecidableEq

/-- `metav1.LabelSelectorRequirement`, apimachinery v0.18 meta/v1/types.go. -/
structure Req where
  key : String
  operator : String
  values : Option Slice
  deriving Repr, DecidableEq

/-- `metav1.LabelSelector`, apimachinery v0.18 meta/v1/types.go. -/
structure Selector where
  matchLabels : Option Nat
  matchExpressions : Option Slice
  deriving Repr, DecidableEq

/-- `metav1.ObjectMeta`, as far as it is modelled. -/
structure ObjectMeta where
  rest : String
  labels : Option Nat
  annotations : Option Nat
  deletion : Option Nat
  finalizers : Option Slice
  deriving Repr, DecidableEq

/-- `metav1.ListMeta`, apimachinery v0.18 meta/v1/types.go: strings, and a pointer to the count of the items
that are still to come. -/
structure ListMeta where
  rest : String
  remaining : Option Nat
  deriving Repr, DecidableEq

/-- `TraceSpec`. (api/v1alpha1/trace_types.go:37-44) -/
structure TraceSpec where
  labelSelector : Selector
  fieldSelector : Selector
  hostSelector : Option Slice
  syscalls : Option Slice
  duration : Int
  sampleRate : Int
  deriving Repr, DecidableEq

/-- `TraceStatus`. (api/v1alpha1/trace_types.go:47-52) -/
structure TraceStatus where
  state : String
  startTime : Option Nat
  completionTime : Option Nat
  jobID : String
  deriving Repr, DecidableEq

/-- `Trace`; `typeMeta` stands for the two strings of `metav1.TypeMeta`. (api/v1alpha1/trace_types.go:61-67) -/
structure Trace where
  typeMeta : String × String
  objectMeta : ObjectMeta
  spec : TraceSpec
  status : TraceStatus
  deriving Repr, DecidableEq

/-- `TraceList`. (api/v1alpha1/trace_types.go:72-76) -/
structure TraceList where
  typeMeta : String × String
  listMeta : ListMeta
  items : Option Slice
  deriving Repr, DecidableEq

/-- What an address can hold. -/
inductive Cell
  | strings (l : List String)
  | labels (m : List (String × String))
  | reqs (l : List Req)
  | time (t : Int)
  | count (n : Int)
  | traces (l : List Trace)
  | trace (t : Trace)
  | list (l : TraceList)
  | spec (s : TraceSpec)
  | status (s : TraceStatus)
  deriving Repr, DecidableEq

abbrev Heap := List Cell

/-- The zero values. (the Go specification; api/v1alpha1/trace_types.go:37-76) -/
def Selector.zero : Selector := ⟨none, none⟩
def TraceSpec.zero : TraceSpec := ⟨.zero, .zero, none, none, 0, 0⟩
def TraceStatus.zero : TraceStatus := ⟨"", none, none, ""⟩
def Trace.zero : Trace := ⟨("", ""), ⟨"", none, none, none, none⟩, .zero, .zero⟩
def TraceList.zero : TraceList := ⟨("", ""), ⟨"", none⟩, none⟩

/-- What is read at an address; the type of a pointer says what is there, so the other cases do not arise. -/
def stringsAt (h : Heap) (a : Nat) : List String :=
  match h[a]? with | some (.strings l) => l | _ => []
def labelsAt (h : Heap) (a : Nat) : List (String × String) :=
  match h[a]? with | some (.labels l) => l | _ => []
def reqsAt (h : Heap) (a : Nat) : List Req :=
  match h[a]? with | some (.reqs l) => l | _ => []
def timeAt (h : Heap) (a : Nat) : Int :=
  match h[a]? with | some (.time t) => t | _ => 0
def countAt (h : Heap) (a : Nat) : Int :=
  match h[a]? with | some (.count t) => t | _ => 0
def tracesAt (h : Heap) (a : Nat) : List Trace :=
  match h[a]? with | some (.traces l) => l | _ => []
def traceAt (h : Heap) (a : Nat) : Trace :=
  match h[a]? with | some (.trace t) => t | _ => .zero
def listAt (h : Heap) (a : Nat) : TraceList :=
  match h[a]? with | some (.list l) => l | _ => .zero
def specAt (h : Heap) (a : Nat) : TraceSpec :=
  match h[a]? with | some (.spec l) => l | _ => .zero
def statusAt (h : Heap) (a : Nat) : TraceStatus :=
  match h[a]? with | some (.status l) => l | _ => .zero

/-- The elements of a slice, given those of its array. -/
def window (s : Slice) (l : List α) : List α := (l.drop s.off).take s.len

/-- `make` or `new`: the heap after it and the address. -/
def alloc (h : Heap) (c : Cell) : Heap × Nat := (h ++ [c], h.length)

/-- The copy of a slice of strings, `make` and `copy`; a nil slice stays nil.
(api/v1alpha1/zz_generated.deepcopy.go:91-95, 96-100) -/
def stringsInto (h : Heap) : Option Slice → Heap × Option Slice
  | none => (h, none)
  | some s =>
    let zeros := List.replicate s.len ""
    let (h, a) := alloc h (.strings zeros)
    let src := window s (stringsAt h s.arr)
    (h.set a (.strings (src.take s.len ++ zeros.drop src.length)), some ⟨a, 0, s.len⟩)

/-- `make` and the loop over the entries of a map. (apimachinery v0.18 meta/v1/zz_generated.deepcopy.go) -/
def labelsInto (h : Heap) : Option Nat → Heap × Option Nat
  | none => (h, none)
  | some m =>
    let (h, a) := alloc h (.labels (labelsAt h m))
    (h, some a)

/-- `(*metav1.Time).DeepCopy` behind a check for nil.
(api/v1alpha1/zz_generated.deepcopy.go:117-120, 121-124) -/
def timeInto (h : Heap) : Option Nat → Heap × Option Nat
  | none => (h, none)
  | some t =>
    let (h, a) := alloc h (.time (timeAt h t))
    (h, some a)

/-- The pointer in `metav1.ListMeta`. (apimachinery v0.18 meta/v1/zz_generated.deepcopy.go) -/
def countInto (h : Heap) : Option Nat → Heap × Option Nat
  | none => (h, none)
  | some t =>
    let (h, a) := alloc h (.count (countAt h t))
    (h, some a)

/-- The loop over the requirements of a selector; what it has copied is put into the array afterwards.
(apimachinery v0.18 meta/v1/zz_generated.deepcopy.go) -/
def reqsLoop (h : Heap) : List Req → Heap × List Req
  | [] => (h, [])
  | r :: rs =>
    let (h, v) := stringsInto h r.values
    let (h, out) := reqsLoop h rs
    (h, { r with values := v } :: out)

/-- The requirements of a selector. (apimachinery v0.18 meta/v1/zz_generated.deepcopy.go) -/
def reqsInto (h : Heap) : Option Slice → Heap × Option Slice
  | none => (h, none)
  | some s =>
    let (h, out) := reqsLoop h (window s (reqsAt h s.arr))
    let (h, a) := alloc h (.reqs out)
    (h, some ⟨a, 0, s.len⟩)

/-- `(*metav1.LabelSelector).DeepCopyInto`. (apimachinery v0.18 meta/v1/zz_generated.deepcopy.go) -/
def selectorInto (h : Heap) (i : Selector) : Heap × Selector :=
  let (h, m) := labelsInto h i.matchLabels
  let (h, e) := reqsInto h i.matchExpressions
  (h, { i with matchLabels := m, matchExpressions := e })

/-- `(*metav1.ObjectMeta).DeepCopyInto`. (apimachinery v0.18 meta/v1/zz_generated.deepcopy.go) -/
def objectMetaInto (h : Heap) (i : ObjectMeta) : Heap × ObjectMeta :=
  let (h, d) := timeInto h i.deletion
  let (h, l) := labelsInto h i.labels
  let (h, a) := labelsInto h i.annotations
  let (h, f) := stringsInto h i.finalizers
  (h, { i with deletion := d, labels := l, annotations := a, finalizers := f })

/-- `(*metav1.ListMeta).DeepCopyInto`. (apimachinery v0.18 meta/v1/zz_generated.deepcopy.go) -/
def listMetaInto (h : Heap) (i : ListMeta) : Heap × ListMeta :=
  let (h, r) := countInto h i.remaining
  (h, { i with remaining := r })

/-- `(*TraceSpec).DeepCopyInto`: what it leaves in `out`, which starts as the same references as `in`.
(api/v1alpha1/zz_generated.deepcopy.go:87-102) -/
def specInto (h : Heap) (i : TraceSpec) : Heap × TraceSpec :=
  let out := i
  let (h, l) := selectorInto h i.labelSelector
  let out := { out with labelSelector := l }
  let (h, f) := selectorInto h i.fieldSelector
  let out := { out with fieldSelector := f }
  let (h, hs) := stringsInto h i.hostSelector
  let out := { out with hostSelector := hs }
  let (h, sc) := stringsInto h i.syscalls
  let out := { out with syscalls := sc }
  (h, { out with duration := i.duration })

/-- `(*TraceStatus).DeepCopyInto`. (api/v1alpha1/zz_generated.deepcopy.go:115-125) -/
def statusInto (h : Heap) (i : TraceStatus) : Heap × TraceStatus :=
  let out := i
  let (h, s) := timeInto h i.startTime
  let out := { out with startTime := s }
  let (h, c) := timeInto h i.completionTime
  (h, { out with completionTime := c })

/-- `(*Trace).DeepCopyInto`. (api/v1alpha1/zz_generated.deepcopy.go:28-34) -/
def traceInto (h : Heap) (i : Trace) : Heap × Trace :=
  let out := i
  let out := { out with typeMeta := i.typeMeta }
  let (h, m) := objectMetaInto h i.objectMeta
  let out := { out with objectMeta := m }
  let (h, s) := specInto h i.spec
  let out := { out with spec := s }
  let (h, st) := statusInto h i.status
  (h, { out with status := st })

/-- The loop over the items of a list: item `i` of the slice `s` is copied into item `i` of the array at `a`;
`n` items are left to do. (api/v1alpha1/zz_generated.deepcopy.go:62-64) -/
def itemsLoop (s : Slice) (a : Nat) : Nat → Nat → Heap → Heap
  | _, 0, h => h
  | i, n + 1, h =>
    let (h, t) := traceInto h ((tracesAt h s.arr)[s.off + i]?.getD .zero)
    itemsLoop s a (i + 1) n (h.set a (.traces ((tracesAt h a).set i t)))

/-- `(*TraceList).DeepCopyInto`. (api/v1alpha1/zz_generated.deepcopy.go:55-66) -/
def listInto (h : Heap) (i : TraceList) : Heap × TraceList :=
  let out := i
  let out := { out with typeMeta := i.typeMeta }
  let (h, m) := listMetaInto h i.listMeta
  let out := { out with listMeta := m }
  match i.items with
  | none => (h, out)
  | some s =>
    let (h, a) := alloc h (.traces (List.replicate s.len .zero))
    (itemsLoop s a 0 s.len h, { out with items := some ⟨a, 0, s.len⟩ })

/-- `(*Trace).DeepCopy`; `none` is the nil pointer. What `DeepCopyInto` leaves is put at the new address at
the end; nobody else has the address before. (api/v1alpha1/zz_generated.deepcopy.go:37-44) -/
def copyTrace (h : Heap) : Option Nat → Heap × Option Nat
  | none => (h, none)
  | some p =>
    let (h, q) := alloc h (.trace .zero)
    let (h, out) := traceInto h (traceAt h p)
    (h.set q (.trace out), some q)

/-- `(*TraceList).DeepCopy`. (api/v1alpha1/zz_generated.deepcopy.go:69-76) -/
def copyList (h : Heap) : Option Nat → Heap × Option Nat
  | none => (h, none)
  | some p =>
    let (h, q) := alloc h (.list .zero)
    let (h, out) := listInto h (listAt h p)
    (h.set q (.list out), some q)

/-- `(*TraceSpec).DeepCopy`. (api/v1alpha1/zz_generated.deepcopy.go:105-112) -/
def copySpec (h : Heap) : Option Nat → Heap × Option Nat
  | none => (h, none)
  | some p =>
    let (h, q) := alloc h (.spec .zero)
    let (h, out) := specInto h (specAt h p)
    (h.set q (.spec out), some q)

/-- `(*TraceStatus).DeepCopy`. (api/v1alpha1/zz_generated.deepcopy.go:128-135) -/
def copyStatus (h : Heap) : Option Nat → Heap × Option Nat
  | none => (h, none)
  | some p =>
    let (h, q) := alloc h (.status .zero)
    let (h, out) := statusInto h (statusAt h p)
    (h.set q (.status out), some q)

/-- A `runtime.Object`: nil, or a pointer of one of the two types, which may itself be nil. An interface that
holds a nil pointer is not nil. (the Go specification) -/
inductive Object
  | nil
  | trace (p : Option Nat)
  | list (p : Option Nat)
  deriving Repr, DecidableEq

/-- `(*Trace).DeepCopyObject`. (api/v1alpha1/zz_generated.deepcopy.go:47-52) -/
def copyTraceObject (h : Heap) (i : Option Nat) : Heap × Object :=
  let (h, c) := copyTrace h i
  match c with
  | some q => (h, .trace (some q))
  | none => (h, .nil)

/-- `(*TraceList).DeepCopyObject`. (api/v1alpha1/zz_generated.deepcopy.go:79-84) -/
def copyListObject (h : Heap) (i : Option Nat) : Heap × Object :=
  let (h, c) := copyList h i
  match c with
  | some q => (h, .list (some q))
  | none => (h, .nil)

end Swoll.DeepCopy
