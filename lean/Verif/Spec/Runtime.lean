import Verif.Model.Runtime
import Verif.Spec.Json
import Verif.Spec.Task
/-
What the container runtime and the proc file system say: proc(5), namespaces(7), and the answers of a runtime.
-/
namespace Swoll.Spec.Runtime
open Swoll Swoll.Runtime
open Swoll.Json (Str Json)
open Swoll.Spec.Json (Says Space)

/-- A number in decimal. -/
def decimal (n : Nat) : Str := Flags.digits n

/-- The status of a container says, in JSON, this of its process. -/
def Tells (status : Option (GoMap Str Str)) (v : Json) : Prop :=
  ∃ raw w t w' before after, status = some raw ∧ GoMap.get raw "info".toList = some (w ++ t ++ w') ∧ Space w ∧ Space w' ∧
    Says t (.obj (before ++ ("pid".toList, v) :: after)) ∧ ∀ m ∈ after, m.1 ≠ "pid".toList

/-- The text is that of a directory: the root, or the one reached by these names. Slashes and dots that mean nothing may be in it. -/
def Names (root : Str) (dirs : List Str) : Prop :=
  ∃ parts : List Str, root = parts.flatMap ('/' :: ·) ∧ (∀ s ∈ parts, '/' ∉ s ∧ s ≠ "..".toList) ∧
    parts.filter (fun s => s ≠ [] ∧ s ≠ ".".toList) = dirs

/-- The file reached by these names. -/
def file (names : List Str) : Str := names.flatMap ('/' :: ·)

/-- The container is of the pod that is asked for, if one is: its name and namespace. -/
def Asked (m : Option (String × String)) (c : Listed) : Prop :=
  ∀ p n, m = some (p, n) → p ≠ "" ∧ n ≠ "" ∧ GoMap.get c.labels "io.kubernetes.pod.name" = some p ∧
    GoMap.get c.labels "io.kubernetes.pod.namespace" = some n

open Spec.Task in
/-- The proc file system of the first pid namespace, mounted below a directory: for each process there, the file
`pid_for_children` is the namespace its next child will be born into; there is no such file while nobody has been born there. -/
def ProcFS (w : World) (dirs : List Str) (fs : Str → Option (BitVec 64)) : Prop :=
  ∀ pr ∈ w.procs, ∀ ld, w.threads[pr.leader]? = some ld → ∀ p, ld.numbers.lookup 0 = some p → ∀ sp, w.spaces[ld.childHome]? = some sp →
    fs (file (dirs ++ ["proc".toList, decimal p.toNat, "ns".toList, "pid_for_children".toList])) =
      if ∃ th ∈ w.threads, th.home = ld.childHome then some (sp.inum.setWidth 64) else none

open Spec.Task in
/-- The thread has not called `unshare` or `setns` for pid namespaces. -/
def Stayed (hist : List (Nat × Act)) (t : Nat) : Prop := ∀ x ∈ hist, ¬ (x.1 = t ∧ x.2.moves = true)

open Spec.Task in
/-- The runtime says of the container that its main process is one that lives in this namespace, and that has stayed there. -/
def Inhabits (w : World) (hist : List (Nat × Act)) (c : Listed) (home : Nat) : Prop :=
  ∃ pr ∈ w.procs, ∃ ld p, w.threads[pr.leader]? = some ld ∧ Stayed hist pr.leader ∧ ld.home = home ∧ ld.numbers.lookup 0 = some p ∧
    Tells c.status (.num (decimal p.toNat))

end Swoll.Spec.Runtime
