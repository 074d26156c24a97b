import Verif.Model.Ring
/-
What the callback should be given, told from the schedule alone. Events are tagged with the CPU they are written on.
-/
namespace Swoll.Spec.Ring
open Swoll.Ring

/-- An event that is written on one of `n` CPUs: the tag is the CPU's number. -/
def Tagged {α : Type} (n : Nat) : Act (Nat × α) → Prop
  | .write cpu a => cpu < n ∧ a.1 = cpu
  | .poll => True

/-- The events, in the order in which they were written. -/
def written {α : Type} (acts : List (Act (Nat × α))) : List (Nat × α) :=
  acts.filterMap fun
    | .write _ a => some a
    | .poll => none

/-- Those of one CPU. -/
def of {α : Type} (cpu : Nat) (l : List (Nat × α)) : List (Nat × α) := l.filter fun a => a.1 = cpu

/-- The events in a ring. -/
def events {α : Type} (b : Buf α) : List α :=
  b.recs.filterMap fun
    | .event a => some a
    | .missed _ => none

/-- How many events the records of a ring, and its counter, say were missed. -/
def lostIn {α : Type} (b : Buf α) : Nat :=
  (b.recs.map fun
    | .event _ => 0
    | .missed n => n).sum + b.missed

/-- Nothing was missed: nothing was told, and nothing waits to be told. -/
def NoneMissed {α : Type} (s : State α) : Prop := s.told = [] ∧ ∀ b ∈ s.bufs, lostIn b = 0

/-- Nothing waits: neither in a ring nor with the reader. -/
def Idle {α : Type} (s : State α) : Prop := s.taken = [] ∧ ∀ b ∈ s.bufs, b.recs = []

end Swoll.Spec.Ring
