import Verif.Model.Offsets
/-
What the searches for kernel offsets are to find, without regular expressions or state machines.
-/
namespace Swoll.Spec.Offsets
open Swoll.JobArgs (Str) 
open Swoll.Offsets

/-- `text` contains an instruction `op r1 mid r2 sign off ]`, with `off` like 0x1f8. -/
def Instr (op mid : Str) (signs : Char → Bool) (text off : Str) : Prop :=
  ∃ pre sp r1 r2 sg w post, text = pre ++ (op ++ (sp ++ (r1 ++ (mid ++ (r2 ++ (sg :: ("0x".toList ++
      (w ++ (']' :: post))))))))) ∧
    sp ≠ [] ∧ (∀ c ∈ sp, reSpace c = true) ∧ r1 ≠ [] ∧ (∀ c ∈ r1, wordChar c = true) ∧
    r2 ≠ [] ∧ (∀ c ∈ r2, wordChar c = true) ∧ signs sg = true ∧
    w ≠ [] ∧ (∀ c ∈ w, wordChar c = true) ∧ off = "0x".toList ++ w

/-- `mov r1,QWORD PTR [r2+off]`. -/
def MovLoad : Str → Str → Prop := Instr "mov".toList ",QWORD PTR [".toList (fun c => c == '+')

/-- `lea r1,[r2+off]` or `lea r1,[r2-off]`. -/
def LeaLoad : Str → Str → Prop := Instr "lea".toList ",[".toList (fun c => c == '+' || c == '-')

/-- A line of code, in the kernel's part of the address space. -/
def CodeLine (l : Str) : Prop := "ffffffff".toList <+: l

/-- In the code, after a line that mentions the address `lock`, there is a load of `off`. -/
def LoadAfterLock (lock : Str) (lines : List Str) (off : Str) : Prop :=
  ∃ before l between l' after, lines = before ++ l :: (between ++ l' :: after) ∧
    CodeLine l ∧ lock <:+: l ∧ CodeLine l' ∧ MovLoad l' off

/-- A value that occurs, and none occurs more often. -/
def MostFrequent (l : List Str) (a : Str) : Prop := a ∈ l ∧ ∀ b, l.count b ≤ l.count a

/-- A line of the symbol file that the parser can take: at least two fields, and a name if it is a
function (type t or T). -/
def WellFormed (line : Str) : Prop :=
  2 ≤ (fields line).length ∧
  (((fields line)[1]? = some ['t'] ∨ (fields line)[1]? = some ['T']) → 3 ≤ (fields line).length)

/-- The line says that the function `name` is at `addr`. -/
def Lists (line name addr : Str) : Prop :=
  ∃ typ rest, fields line = addr :: typ :: name :: rest ∧ (typ = ['t'] ∨ typ = ['T'])

/-- The symbol file has the functions at these addresses, and objdump has their code. -/
def Dumped (w : World) (syms : GoMap Str Str) (fns : List Str) (codes : List Str) : Prop :=
  fns.mapM (fun fn => (syms.get fn).bind w.dump) = some codes

/-- Go yields the entries of a map in any order. -/
def AnyOrder (w : World) : Prop := ∀ m, (w.order m).Perm m

end Swoll.Spec.Offsets
