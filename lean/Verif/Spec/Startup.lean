import Verif.Model.Startup
/-
What a user expects of the start-up.
-/
namespace Swoll.Spec.Startup
open Swoll Swoll.Startup
open Swoll.JobArgs (Str)

/-- The first of these that is not empty. -/
def FirstGiven : List Str → Str → Prop
  | [], s => s = []
  | a :: as, s => (a ≠ [] ∧ s = a) ∨ (a = [] ∧ FirstGiven as s)

/-- `l` is a line of the text. -/
def LineOf (text l : Str) : Prop :=
  '\n' ∉ l ∧ ∃ before after, text = before ++ l ++ after ∧
    (before = [] ∨ ∃ b, before = b ++ ['\n']) ∧ (after = [] ∨ ∃ a, after = '\n' :: a)

/-- The kernel was built with this option, in the kernel or as a module. -/
def Enabled (text feature : Str) : Prop :=
  LineOf text (feature ++ "=y".toList) ∨ LineOf text (feature ++ "=m".toList)

/-- A machine on which the probe can be used. Of a kernel whose configuration is not there nothing is
known. -/
structure Fit (h : Host) : Prop where
  admin : h.sysAdmin = some true
  tracing : h.tracing = .found
  features : ∀ text, h.config = .text text → ∀ f ∈ ["CONFIG_BPF", "CONFIG_BPF_JIT", "CONFIG_FTRACE_SYSCALLS"],
    Enabled text f.toList
  readable : h.config ≠ .failed

/-- An ordinary configuration file. -/
def Ordinary (text : Str) : Prop := '\r' ∉ text ∧ ∀ l, LineOf text l → l.length ≤ 65535

end Swoll.Spec.Startup
