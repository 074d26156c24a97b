import Verif.Model.SyscallTable
/-
What the documentation of `Lookup` promises: the key is a name (with or without the
`sys_` prefix) or a number, and the answer is the matching entry of the tables.
-/
namespace Swoll.Spec.Syscalls
open Swoll.Syscalls (gSyscallMap gClassMap)

/-- `name` has number `nr` and belongs to class `c`, group `g` according to the source tables. -/
def Entry (name : String) (nr : Nat) (c g : String) : Prop :=
  (name, nr) ∈ gSyscallMap ∧ (c, g, name) ∈ gClassMap

end Swoll.Spec.Syscalls
