import Verif.Model.Examples
import Verif.Spec.Host
/-
What happens to a program that traces, seen as what happens to `swoll trace --no-containers`: the calls are the same, and the
callback given a sample is the line printed. A notice of lost samples is nothing. What calls are due is said in Spec/Host.
-/
namespace Swoll.Spec.Examples
open Swoll Swoll.Examples

/-- One operation; `env` is what a printed line depends on. -/
def viewOp (env : Print.Env) : Op → Option Host.Op
  | .enter t id mtime time args full => some (.enter t id mtime time args full)
  | .exit t id ret mtime time mem scratch lost => some (.exit t id ret mtime time mem scratch lost)
  | .execve t time mem filename argv scratch lost => some (.execve t time mem filename argv scratch lost)
  | .sample _ => some (.show env)
  | .lost _ => none

/-- A history. -/
def view (env : Print.Env) (hist : List Op) : List Host.Op := hist.filterMap (viewOp env)

/-- The rules of a program that asks for these calls, by name and everywhere, with the filter switched on. -/
def asking (tbl : Syscalls.Syscalls) (given : List String) : Filter.KMaps :=
  (Filter.run tbl Filter.KMaps.empty (given.map (fun n => .addSyscall (.str n) (-1) {}) ++ [.enable])).1

end Swoll.Spec.Examples
