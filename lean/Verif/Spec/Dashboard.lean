import Verif.Model.Dashboard
/-
What the panels of the dashboard are meant to show.
-/
namespace Swoll.Spec.Dashboard
open Swoll Swoll.Dashboard
open Swoll.JobArgs (Str)
open Swoll.Views (Desc)

/-- Which calls: all of them, those that succeeded, those that failed. -/
inductive Outcome where
  | any | ok | failed
  deriving DecidableEq, Repr

/-- What a panel is about: calls or time, of which outcome, whether the class and the group that were chosen count, what there is
one line for, and how many lines there is room for. -/
structure Meaning where
  desc : Desc
  outcome : Outcome
  cls : Bool
  group : Bool
  lines : List String
  room : Option Nat := none
  deriving DecidableEq, Repr

/-- The panels by number, with what their titles and legends say; but for 51 and 29, whose titles name the class and the group. -/
def meanings : List (Nat × Meaning) :=
  [(14, ⟨.time, .ok, true, true, ["syscall"], none⟩),
    (28, ⟨.count, .failed, true, true, ["err"], none⟩),
    (25, ⟨.count, .ok, true, true, ["container", "pod", "namespace"], some 10⟩),
    (125, ⟨.count, .failed, true, true, ["container", "pod", "namespace"], some 10⟩),
    (16, ⟨.count, .ok, false, false, ["class"], none⟩),
    (22, ⟨.count, .failed, false, false, ["class"], none⟩),
    (11, ⟨.count, .ok, false, false, ["class"], none⟩),
    (10, ⟨.count, .failed, false, false, ["class"], none⟩),
    (23, ⟨.count, .ok, true, false, ["group"], none⟩),
    (24, ⟨.count, .failed, true, false, ["group"], none⟩),
    (2, ⟨.count, .ok, true, false, ["group"], none⟩),
    (12, ⟨.count, .failed, true, false, ["group"], none⟩),
    (20, ⟨.count, .ok, true, true, ["syscall"], none⟩),
    (21, ⟨.count, .failed, true, true, ["syscall", "err"], none⟩),
    (9, ⟨.count, .ok, true, true, ["syscall"], none⟩),
    (13, ⟨.count, .failed, true, true, ["syscall"], none⟩),
    (51, ⟨.count, .any, false, false, ["syscall"], some 15⟩),
    (29, ⟨.count, .failed, false, false, ["syscall"], some 15⟩),
    (31, ⟨.count, .any, false, false, ["container"], none⟩),
    (40, ⟨.count, .failed, false, false, ["container"], none⟩)]

/-- The panels for one class. -/
def oneClass : List Nat := [23, 24, 2, 12, 20, 21, 9, 13]

/-- The panels for one class and one group. -/
def oneGroup : List Nat := [20, 21, 9, 13]

/-- Is this value among those chosen? -/
def meets (c : Choice) (x : Str) : Bool := match c with
  | .all => true
  | .one v => x = v
  | .many vs => x ∈ vs

/-- Is the series one that the panel is about, with what was chosen? -/
def wanted (m : Meaning) (ch : Str → Choice) (s : Series) : Bool :=
  s.desc = m.desc &&
  (match m.outcome with
    | .any => true
    | .ok => s.get "err".toList = "OK".toList
    | .failed => s.get "err".toList ≠ "OK".toList) &&
  meets (ch "namespace".toList) (s.get "namespace".toList) && meets (ch "pod".toList) (s.get "pod".toList) &&
  meets (ch "container".toList) (s.get "container".toList) &&
  (!m.cls || meets (ch "class".toList) (s.get "class".toList)) && (!m.group || meets (ch "group".toList) (s.get "group".toList))

/-- The line a series belongs to. -/
def line (m : Meaning) (s : Series) : List Str := m.lines.map fun n => s.get n.toList

/-- The sum of the rates of the series of a line. -/
def total (m : Meaning) (ch : Str → Choice) (ss : List Series) (k : List Str) : Nat :=
  ((ss.filter fun s => wanted m ch s && line m s = k).map Series.rate).sum

/-- A name without quotes and line ends. -/
def Clean (v : Str) : Prop := '"' ∉ v ∧ '\n' ∉ v

/-- A name without characters that mean something in an expression. -/
def Plain (v : Str) : Prop := ∀ c ∈ v, c ≠ '\\' ∧ c ∉ "$^*{}[]+?.()|'".toList

/-- All that was chosen is of clean names. -/
def CleanChoice : Choice → Prop
  | .all => True
  | .one v => Clean v
  | .many vs => ∀ v ∈ vs, Clean v

/-- The series as servers export them: with names, and the calls counted whose time is taken. -/
structure Exported (ss : List Series) : Prop where
  named : ∀ s ∈ ss, ∀ n ∈ ["namespace", "pod", "container", "class", "group"], s.get n.toList ≠ [] ∧ Clean (s.get n.toList)
  plain : ∀ s ∈ ss, Plain (s.get "class".toList) ∧ Plain (s.get "group".toList)
  both : ∀ s ∈ ss, ∃ t ∈ ss, t.desc = .count ∧ t.labels = s.labels

end Swoll.Spec.Dashboard
