import Verif.Util.GoMap
/-
Model of internal/pkg/alert: the queue of firing alerts and the Prometheus parser.
-/
namespace Swoll.Alert
open Swoll

/-- `Status`, alert.go:3-10, 20-21. -/
inductive Status where
  | unknown | firing | resolved
  deriving DecidableEq, Repr

/-- `Source`, alert.go:14-18. -/
structure Source where
  ns : String
  pod : String
  container : String
  deriving DecidableEq, Repr

/-- `Info`, alert.go:24-30. -/
structure Info where
  status : Status
  name : String
  hash : String
  syscall : String
  url : String
  deriving DecidableEq, Repr

/-- `Alert`, alert.go:34-37. -/
structure Alert where
  info : Info
  source : Source
  deriving DecidableEq, Repr

/-- The heap of alerts: `Push` takes a pointer and keeps a pointer into the alert it was given
(queue.go:88-89), so later changes by the caller are seen by the queue. -/
abbrev Heap := Nat → Alert

/-- `alertTable`, queue.go:19-25: source → syscall → pointer (the address of the alert whose
`Info` is pointed to). -/
abbrev Table := GoMap Source (GoMap String Nat)

/-- Callback invocations, queue.go:8-17, 29. -/
inductive Call where
  | new (s : Source)
  | add (s : Source) (i : Info)
  | del (s : Source) (i : Info)
  | drop (s : Source)
  deriving DecidableEq, Repr

/-- `Push`, queue.go:59-140, of the alert at address `r`, with a non-nil callback: the table
and the calls made.  The whole body is under the queue's lock; the nil-queue error is left
out. -/
def push (heap : Heap) (q : Table) (r : Nat) : Table × List Call :=
  let a := heap r
  match a.info.status with
  | .firing =>
    let isNew := !GoMap.has q a.source
    let tbl := (GoMap.get q a.source).getD []
    let cb1 := if isNew then [.new a.source] else []
    if GoMap.has tbl a.info.syscall then (q, cb1)
    else (GoMap.set q a.source (GoMap.set tbl a.info.syscall r), cb1 ++ [.add a.source a.info])
  | .resolved =>
    match GoMap.get q a.source with
    | none => (q, [])
    | some tbl =>
      match GoMap.get tbl a.info.syscall with
      | none => (q, [])
      | some p =>
        let info := (heap p).info
        let cb1 := if info.status ≠ .resolved then [.del a.source a.info] else []
        let tbl1 := GoMap.del tbl info.syscall
        if tbl1.length = 0 then (GoMap.del q a.source, cb1 ++ [.drop a.source])
        else (GoMap.set q a.source tbl1, cb1)
  | .unknown => (q, [])

/-- What can happen: the program writes an alert to an address, or pushes an address.
(the callers of Push, queue.go:59) -/
inductive Op where
  | write (r : Nat) (a : Alert)
  | push (r : Nat)
  deriving DecidableEq, Repr

/-- The queue, queue.go:31-34, and the memory its pointers lead to. -/
structure State where
  heap : Heap
  q : Table

/-- One operation. (Push is queue.go:59-140; the write is any code that holds the pointer) -/
def step (s : State) : Op → State × List Call
  | .write r a => ({ s with heap := fun x => if x = r then a else s.heap x }, [])
  | .push r => ({ s with q := (push s.heap s.q r).1 }, (push s.heap s.q r).2)

/-- A history; the calls per operation. (any sequence of calls of Push, queue.go:59-140) -/
def run : State → List Op → State × List (List Call)
  | s, [] => (s, [])
  | s, o :: os =>
    let r := step s o
    let t := run r.1 os
    (t.1, r.2 :: t.2)

/-- `NewAlertQueue`, queue.go:53-55. -/
def init (heap : Heap) : State := ⟨heap, []⟩

/-! ### The Prometheus parser -/

/-- A `template.Alert` as far as it is read, prometheus.go. -/
structure RawAlert where
  status : String
  labels : GoMap String String
  generatorURL : String
  fingerprint : String
  deriving DecidableEq, Repr

/-- `parseStatus`, prometheus.go:20-29. -/
def parseStatus (s : String) : Status :=
  if s = "firing" then .firing else if s = "resolved" then .resolved else .unknown

/-- `parseSingleAlert`, prometheus.go:33-48. -/
def parseSingle (r : RawAlert) : Alert :=
  let l := fun k => (GoMap.get r.labels k).getD ""
  { info := { status := parseStatus r.status, name := l "alertname", syscall := l "syscall",
              hash := r.fingerprint, url := r.generatorURL }
    source := { ns := l "namespace", pod := l "pod", container := l "container" } }

/-- `ParseAlerts`, prometheus.go:51-70, after decoding; `none` is a JSON error. -/
def parseAlerts (data : Option (List RawAlert)) : Option (List Alert) :=
  data.map (fun l => l.map parseSingle)

end Swoll.Alert
