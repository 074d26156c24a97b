import Verif.Model.Views
/-
What `swoll top` draws: the table of rows (cmd/top.go:179-265) and the graphs of changes (cmd/top.go:510-523). The rows
themselves are in Model/Views.

Simplifications: the rate of a row, which depends on the clock, is a parameter. Colours other than that of errors are
left out.
-/
namespace Swoll.Top
open Swoll Swoll.Views

/-- `fmt.Sprintf("%v")` of a `float64` that is a whole number below 2^53: `%v` is `%g`, which uses an exponent from 10^21
on. (top.go:241, 245) -/
def countText (n : Int) : String := String.ofList (Flags.itoa n)

/-- The titles of the columns. (top.go:207-226) -/
def header (aggregate : Bool) : List String :=
  if aggregate then ["Syscall", "Errno", "Host", "Count", "Rate"]
  else ["Syscall", "Errno", "Namespace", "POD", "Container", "Count", "Rate"]

/-- A row. (top.go:234-247) -/
def row (aggregate : Bool) (rate : AKey → String) (e : AKey × AVal) : List String :=
  if aggregate then
    [e.1.sc, e.1.err, e.1.ctr ++ "." ++ e.1.pod ++ "." ++ e.1.ns, countText e.2.count, rate e.1]
  else [e.1.sc, e.1.err, e.1.ns, e.1.pod, e.1.ctr, countText e.2.count, rate e.1]

/-- `update`: the lines of the table, for the rows as `makeSortable` has ordered them. (top.go:199-265) -/
def lines (aggregate : Bool) (rate : AKey → String) (sorted : Agg) : List (List String) :=
  header aggregate :: sorted.map (row aggregate rate)

/-- `RowStyles`: is line `n` drawn in the colour of errors? (top.go:229, 249-251) -/
def red (sorted : Agg) (n : Nat) : Bool :=
  match n with
  | 0 => false
  | n + 1 => match sorted[n]? with
    | some e => e.1.err != "OK"
    | none => false

/-- A graph gets the change of a tick: one old value goes if there are more than fit. (top.go:510-523) -/
def push (width : Nat) (data : List Int) (v : Int) : List Int :=
  (if width < data.length then data.drop 1 else data) ++ [v]

/-- What is drawn of a graph: a column for each value, from the left, as far as they fit. (`SparklineGroup.Draw` of
termui 3.1.0, used at top.go:525-527.) -/
def drawn (width : Nat) (data : List Int) : List Int := data.take width

end Swoll.Top
