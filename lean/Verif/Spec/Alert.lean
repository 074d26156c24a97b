import Verif.Model.Alert
/-
What users expect of the alert queue, without its tables: each (source, syscall) pair fires
from its first firing push until the next resolved one.
-/
namespace Swoll.Spec.Alert
open Swoll Swoll.Alert

/-- The alerts pushed, as they were when pushed. -/
def pushed : Heap → List Op → List Alert
  | _, [] => []
  | h, .write r a :: os => pushed (fun x => if x = r then a else h x) os
  | h, .push r :: os => h r :: pushed h os

/-- Pushes that say something about a pair. -/
def concerns (a : Alert) (s : Source) (sc : String) : Prop :=
  a.source = s ∧ a.info.syscall = sc ∧ a.info.status ≠ .unknown

instance (a : Alert) (s : Source) (sc : String) : Decidable (concerns a s sc) := by unfold concerns; infer_instance

/-- Does the pair fire after these pushes?  The last word decides. -/
def fires (as : List Alert) (s : Source) (sc : String) : Bool :=
  match (as.filter (fun a => concerns a s sc)).getLast? with
  | some a => a.info.status = .firing
  | none => false

/-- Does any syscall other than those in `except` fire for the source?  (Only pushed alerts can
fire, so it is enough to look at those.) -/
def active (as : List Alert) (s : Source) (except : List String := []) : Bool :=
  as.any (fun a => !except.contains a.info.syscall && fires as s a.info.syscall)

/-- Is the pair in the queue? -/
def Queued (q : Table) (s : Source) (sc : String) : Prop := ∃ t, GoMap.get q s = some t ∧ GoMap.has t sc = true

/-- The caller's side of the contract: an alert is not changed once it has been pushed. -/
def Untouched : List Op → Prop
  | [] => True
  | .push r :: os => (∀ a, .write r a ∉ os) ∧ Untouched os
  | .write _ _ :: os => Untouched os

/-- A consumer that keeps its own copy from the callbacks alone: per source the list of
syscalls firing.  It gives up (`none`) on a call that makes no sense to it. -/
def mirror (m : List (Source × List String)) : Call → Option (List (Source × List String))
  | .new s => if GoMap.has m s then none else some (GoMap.set m s [])
  | .add s i =>
    match GoMap.get m s with
    | some l => if i.syscall ∈ l then none else some (GoMap.set m s (i.syscall :: l))
    | none => none
  | .del s i =>
    match GoMap.get m s with
    | some l => if i.syscall ∈ l then some (GoMap.set m s (l.filter (· ≠ i.syscall))) else none
    | none => none
  | .drop s => if GoMap.get m s = some [] then some (GoMap.del m s) else none

def mirrorAll : List (Source × List String) → List Call → Option (List (Source × List String))
  | m, [] => some m
  | m, c :: cs =>
    match mirror m c with
    | none => none
    | some m1 => mirrorAll m1 cs

end Swoll.Spec.Alert
