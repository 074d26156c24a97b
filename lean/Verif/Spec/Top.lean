import Verif.Model.Top
import Verif.Spec.Views
/-
What a row of the table of `swoll top` is to show.
-/
namespace Swoll.Spec.Top
open Swoll Swoll.Syscalls Swoll.Views
open Swoll.Topology (Container)

/-- The name of the syscall of a metric; empty if it has none. -/
def callName (tbl : Syscalls) (m : Metric) : String := ((lookup tbl (.int (m.1.syscall.toNat : Int))).map (·.name)).getD ""

/-- The name of its error. -/
def errorName (m : Metric) : String := Flags.errnoToString (m.1.errno.toNat : Int)

/-- The row shows the metric: call, error, namespace, pod, container and count. -/
def Shows (tbl : Syscalls) (x : Container × Metric) (r : List String) : Prop :=
  ∃ rate, r = [callName tbl x.2, errorName x.2, x.1.ns, x.1.pod, x.1.name, toString x.2.2.count.toNat, rate]

/-- The same with the container in one column. -/
def ShowsHost (tbl : Syscalls) (x : Container × Metric) (r : List String) : Prop :=
  ∃ rate, r = [callName tbl x.2, errorName x.2, x.1.name ++ "." ++ x.1.pod ++ "." ++ x.1.ns,
    toString x.2.2.count.toNat, rate]

/-- The two metrics are of the same call, with the same result, of containers of the same name. -/
def Same (tbl : Syscalls) (x y : Container × Metric) : Prop :=
  callName tbl x.2 = callName tbl y.2 ∧ errorName x.2 = errorName y.2 ∧ x.1.ns = y.1.ns ∧ x.1.pod = y.1.pod ∧
    x.1.name = y.1.name

/-- A metric is the latest of its kind among those that were seen. -/
def Latest (tbl : Syscalls) (all : List (Container × Metric)) (x : Container × Metric) : Prop :=
  ∃ pre post, all = pre ++ x :: post ∧ ∀ y ∈ post, ¬ Same tbl y x

end Swoll.Spec.Top
