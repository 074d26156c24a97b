import Verif.Util.GoMap
import Verif.Model.SyscallTable
/-
Model of pkg/syscalls/syscalls.go.
-/
namespace Swoll.Syscalls

/-- `type Syscall struct`, pkg/syscalls/syscalls.go:10-15. -/
structure Syscall where
  nr : Nat
  name : String
  cls : String
  group : String
  deriving DecidableEq, Repr

/-- `type Syscalls struct`, pkg/syscalls/syscalls.go:17-22.  Both maps hold pointers to the
same immutable records, modelled as the records themselves. -/
structure Syscalls where
  nr : GoMap Int Syscall
  name : GoMap String Syscall

/-- One iteration of the innermost loop of `(*Syscalls).init`,
pkg/syscalls/syscalls.go:97-107; `none` is the "No matching NR" error. -/
def initStep (s : Syscalls) (e : String × String × String) : Option Syscalls :=
  match GoMap.get gSyscallMap e.2.2 with
  | none => none
  | some nr =>
    let sc : Syscall := ⟨nr, e.2.2, e.1, e.2.1⟩
    some ⟨GoMap.set s.nr (nr : Int) sc, GoMap.set s.name e.2.2 sc⟩

/-- `(*Syscalls).init`, pkg/syscalls/syscalls.go:94-112, for an iteration order `es` of the
entries of `gClassMap` (Go iterates its two map levels in an unspecified order). -/
def initLoop : Syscalls → List (String × String × String) → Option Syscalls
  | s, [] => some s
  | s, e :: es =>
    match initStep s e with
    | none => none
    | some s' => initLoop s' es

/-- `New`, pkg/syscalls/syscalls.go:149-160. -/
def new (order : List (String × String × String)) : Option Syscalls := initLoop ⟨[], []⟩ order

/-- The dynamic type of the argument of `Lookup`. (pkg/syscalls/syscalls.go:116-137) -/
inductive Key where
  | str (s : String)
  | u32 (n : BitVec 32)
  | int (n : Int)
  | other
  deriving DecidableEq

/-- `strings.HasPrefix(v, "sys_")` together with the prefixing,
pkg/syscalls/syscalls.go:125-127. -/
def normName (v : String) : String :=
  if "sys_".toList.isPrefixOf v.toList then v else "sys_" ++ v

/-- `(*Syscalls).Lookup`, pkg/syscalls/syscalls.go:116-137 (non-nil receiver). -/
def lookup (s : Syscalls) : Key → Option Syscall
  | .str v => GoMap.get s.name (normName v)
  | .u32 n => GoMap.get s.nr (n.toNat : Int)
  | .int n => GoMap.get s.nr n
  | .other => none

/-- `GetByClass`, pkg/syscalls/syscalls.go:60-70, for an iteration order of the map of numbers. -/
def getByClass (order : GoMap Int Syscall) (cls : String) : List Syscall :=
  (order.map (·.2)).filter (fun sc => sc.cls = cls)

/-- `GetByGroup`, pkg/syscalls/syscalls.go:48-58. -/
def getByGroup (l : List Syscall) (group : String) : List Syscall :=
  l.filter (fun sc => sc.group = group)

/-- `Classes`, pkg/syscalls/syscalls.go:72-78, for an iteration order. No class of the table is empty. -/
def classes (order : List (String × String × String)) : List String := (order.map (·.1)).eraseDups

/-- `Groups`, pkg/syscalls/syscalls.go:80-86, for an iteration order. No group of the table is empty. -/
def groups (order : List (String × String × String)) (cls : String) : List String :=
  ((order.filter (fun e => e.1 = cls)).map (·.2.1)).eraseDups

/-- `Calls`, pkg/syscalls/syscalls.go:88-90. -/
def calls (cls group : String) : List String :=
  (gClassMap.filter (fun e => e.1 = cls ∧ e.2.1 = group)).map (·.2.2)

end Swoll.Syscalls
