import Verif.Model.Views
/-
The dashboard that comes with the program, internal/deploy/dashboard/dashboard.json: what its panels show of the series that
the servers export (cmd/prometheus.go).

Grafana (of the time of schema version 22) and Prometheus are libraries here: the text that is put in the place of a variable, the
matchers, sums by labels and the choice of the largest. Simplifications: a series has one rate, a whole number, at the time the
dashboard is looked at; how Prometheus gets it from the counters is not modelled, nor are labels that it adds itself. Times are in
nanoseconds (the division by 1000000 at dashboard.json:127 is a matter of the unit). An average is rounded down. Panels 31 and 40
are repeated for each namespace; a copy is the panel with that namespace chosen. Panels 52, 53 and 54 have the query of 31, and 55,
56 and 57 that of 40.
-/
namespace Swoll.Dashboard
open Swoll
open Swoll.JobArgs (Str)
open Swoll.Views (Desc Sample)

/-- The names of the labels. (prometheus.go:23) -/
def labelNames : List Str := ["syscall", "pod", "container", "namespace", "class", "group", "err", "kns"].map String.toList

/-- `BuildFQName`: the parts that are not empty, joined by `_`. (Library, at prometheus.go:32, 38.) -/
def fqName (d : Desc) : Str :=
  (["swoll_node_metrics", "", match d with | .count => "syscall_count" | .time => "syscall_time"].filter (· ≠ "") |>.map
    String.toList).intersperse ['_'] |>.flatten

/-- A series that Prometheus keeps. (prometheus.go:70-92) -/
structure Series where
  desc : Desc
  labels : List Str
  rate : Nat
  deriving DecidableEq, Repr

/-- The series of a sample. (prometheus.go:70-92) -/
def ofSample (s : Sample) (rate : Nat) : Series := ⟨s.desc, s.labels.map String.toList, rate⟩

/-- The value of a label; nothing, if there is no such label. (prometheus.go:23, 74-79) -/
def Series.get (s : Series) (n : Str) : Str :=
  match (labelNames.zip s.labels).find? (fun p => p.1 = n) with
  | some p => p.2
  | none => []

/-- `=`, `!=` and `=~`. (dashboard.json:127-2099) -/
inductive Op where
  | eq | ne | re
  deriving DecidableEq, Repr

/-- What a matcher compares with: a text or a variable. (dashboard.json:127-2099) -/
inductive Val where
  | lit (s : Str)
  | var (v : Str)
  deriving DecidableEq, Repr

/-- One condition between the braces. (dashboard.json:127-2099) -/
structure Matcher where
  label : Str
  op : Op
  value : Val
  deriving DecidableEq, Repr

/-- `sum` or `avg`. (dashboard.json:1384, 1454) -/
inductive Agg where
  | sum | avg
  deriving DecidableEq, Repr

/-- The query of a panel: `topk(top, agg(rate(metric{matchers}[$ival])) by (by))`. (dashboard.json:127-2099) -/
structure Query where
  metric : Str
  matchers : List Matcher
  by_ : List Str
  agg : Agg := .sum
  top : Option Nat := none
  deriving DecidableEq, Repr

/-! ### Variables -/

/-- What was chosen in the list of a variable. (`includeAll` and `multi`, dashboard.json:2143-2258) -/
inductive Choice where
  | all
  | one (v : Str)
  | many (vs : List Str)
  deriving DecidableEq, Repr

/-- The values of a variable, by name. (Library, for dashboard.json:2143-2258.) -/
abbrev Env := List (Str × List Str)

/-- The values of one variable. (Library, for dashboard.json:2143-2258.) -/
def Env.get (e : Env) (v : Str) : List Str :=
  match e.find? (fun p => p.1 = v) with
  | some p => p.2
  | none => []

/-- The characters that Grafana escapes. (`prometheusSpecialRegexEscape`, library, for dashboard.json:2143-2258) -/
def special : List Char := "$^*{}[]+?.()|'".toList

/-- One character in the place of a variable. (`prometheusSpecialRegexEscape`, library, for dashboard.json:2143-2258) -/
def escape1 (c : Char) : Str := if c = '\\' then ['\\', '\\', '\\', '\\'] else if c ∈ special then ['\\', '\\', c] else [c]

/-- One value in the place of a variable. (`prometheusSpecialRegexEscape`, library, for dashboard.json:2143-2258) -/
def escape (v : Str) : Str := v.flatMap escape1

/-- Several values in the place of a variable. (`interpolateQueryExpr`, library, for dashboard.json:2143-2258) -/
def bar : List Str → Str
  | [] => []
  | [v] => v
  | v :: vs => v ++ '|' :: bar vs

/-- A text between quotes, as PromQL reads it; escapes other than of the backslash do not come up. (Library, for
dashboard.json:127-2099.) -/
def unquote : Str → Option Str
  | [] => some []
  | '\\' :: '\\' :: r => (unquote r).map ('\\' :: ·)
  | c :: r => if c = '\\' ∨ c = '"' ∨ c = '\n' then none else (unquote r).map (c :: ·)

/-- A character at the start of the first alternative. (Library, for dashboard.json:127-2099.) -/
def push (c : Char) : List Str → List Str
  | [] => [[c]]
  | a :: as => (c :: a) :: as

/-- The characters that mean something in an expression. (`regexp.QuoteMeta`, library, for dashboard.json:127-2099.) -/
def operators : List Char := "\\.+*?()|[]{}^$".toList

/-- May the character be escaped to stand for itself? (Package regexp/syntax, library, for dashboard.json:127-2099.) -/
def escapable (c : Char) : Bool := c.toNat < 128 && !c.isAlphanum

/-- The texts that match an expression made of plain and escaped characters and bars; other expressions do not come up. (Library,
for dashboard.json:127-2099.) -/
def alts : Str → Option (List Str)
  | [] => some [[]]
  | '\\' :: c :: r => if escapable c then (alts r).map (push c) else none
  | c :: r => if c = '|' then (alts r).map ([] :: ·) else if c ∈ operators then none else (alts r).map (push c)

/-- The text a matcher compares with. (dashboard.json:127-2099) -/
def Matcher.text (e : Env) (m : Matcher) : Option Str := match m.value with
  | .lit s => unquote s
  | .var v => unquote (bar ((e.get v).map escape))

/-- Which values of the label match; `none`: the query is refused. (Library, for dashboard.json:127-2099.) -/
def Matcher.test (e : Env) (m : Matcher) : Option (Str → Bool) := match m.op, m.text e with
  | _, none => none
  | .eq, some t => some fun x => x = t
  | .ne, some t => some fun x => x ≠ t
  | .re, some t => (alts t).map fun as x => as.contains x

/-- The series a selector selects. (Library, for dashboard.json:127-2099.) -/
def select (e : Env) (ss : List Series) (metric : Str) (ms : List Matcher) : Option (List Series) :=
  (ms.mapM fun (m : Matcher) => (m.test e).map fun f => (m.label, f)).map fun fs =>
    ss.filter fun s => fqName s.desc = metric && fs.all fun p => p.2 (s.get p.1)

/-- Adding to a row: the sum and how many. (Library, for dashboard.json:127-2099.) -/
def bump : List (List Str × Nat × Nat) → List Str → Nat → List (List Str × Nat × Nat)
  | [], k, r => [(k, r, 1)]
  | (k', t, n) :: rest, k, r => if k' = k then (k', t + r, n + 1) :: rest else (k', t, n) :: bump rest k r

/-- The labels a sum is by. (Library, for dashboard.json:127-2099.) -/
def keyOf (by_ : List Str) (s : Series) : List Str := by_.map s.get

/-- The sums by labels. (Library, for dashboard.json:127-2099.) -/
def group (by_ : List Str) (ss : List Series) : List (List Str × Nat × Nat) := ss.foldl (fun rows s => bump rows (keyOf by_ s) s.rate) []

/-- The value of a row. (dashboard.json:1384, 1454) -/
def Agg.value : Agg → Nat × Nat → Nat
  | .sum, p => p.1
  | .avg, p => p.1 / p.2

/-- `topk`. (Library, for dashboard.json:313, 318, 1384, 1454.) -/
def cut (top : Option Nat) (rows : List (List Str × Nat)) : List (List Str × Nat) := match top with
  | none => rows
  | some k => (rows.mergeSort fun a b => decide (b.2 ≤ a.2)).take k

/-- What a query gives; `none`: it is refused. (dashboard.json:127-2099) -/
def Query.eval (e : Env) (ss : List Series) (q : Query) : Option (List (List Str × Nat)) :=
  (select e ss q.metric q.matchers).map fun sel => cut q.top ((group q.by_ sel).map fun r => (r.1, q.agg.value r.2))

/-- The name of the counter. (dashboard.json:209) -/
def countName : Str := "swoll_node_metrics_syscall_count".toList

/-- The name of the time. (dashboard.json:127) -/
def timeName : Str := "swoll_node_metrics_syscall_time".toList

/-- `label=~"$label"`. (dashboard.json:127-2099) -/
def re (l : String) : Matcher := ⟨l.toList, .re, .var l.toList⟩

/-- `label="$label"`. (dashboard.json:729-1292) -/
def eqv (l : String) : Matcher := ⟨l.toList, .eq, .var l.toList⟩

/-- `err="OK"`. (dashboard.json:127) -/
def ok : Matcher := ⟨"err".toList, .eq, .lit "OK".toList⟩

/-- `err!="OK"`. (dashboard.json:209) -/
def failed : Matcher := ⟨"err".toList, .ne, .lit "OK".toList⟩

/-- The variables with the conditions of their lists. (dashboard.json:2143-2258) -/
def vars : List (Str × List Matcher) :=
  [("namespace".toList, []), ("pod".toList, [re "namespace"]), ("container".toList, [re "namespace", re "pod"]),
    ("class".toList, []), ("group".toList, [re "class"])]

/-- The list of a variable: `count by (v)` gives one result for each value, `{v="x"} n t`; an empty label is left out of it, and
`/v="(.*?)"/` takes what is before the first quote. (dashboard.json:2143-2258) -/
def options (e : Env) (ss : List Series) (v : Str) (ms : List Matcher) : List Str := match select e ss countName ms with
  | none => []
  | some sel => ((group [v] sel).map fun r => (r.1.headD []).takeWhile (· ≠ '"')).filter (· ≠ [])

/-- The values of a variable, of its list and what was chosen. (`getAllValue`, library, for dashboard.json:2143-2258) -/
def Choice.values (opts : List Str) : Choice → List Str
  | .all => opts
  | .one v => [v]
  | .many vs => vs

/-- The values of the variables, one after the other. (dashboard.json:2143-2258) -/
def resolve (ss : List Series) (ch : Str → Choice) : Env :=
  vars.foldl (fun e p => e ++ [(p.1, (ch p.1).values (options e ss p.1 p.2))]) []

/-- What a panel shows. (dashboard.json:127-2099) -/
def shown (ss : List Series) (ch : Str → Choice) (q : Query) : Option (List (List Str × Nat)) := q.eval (resolve ss ch) ss

/-- The panels with their numbers; the second query of 25 is 125 here. (dashboard.json:127-2099) -/
def panels : List (Nat × Query) :=
  let here := [re "container", re "pod", re "namespace"]
  let a := fun (ms : List Matcher) (by_ : List String) => (⟨countName, ms, by_.map String.toList, .sum, none⟩ : Query)
  [(14, ⟨timeName, [re "container", re "group", re "class", re "pod", re "namespace", ok], ["syscall".toList], .sum, none⟩),
    (28, a (here ++ [re "class", re "group", failed]) ["err"]),
    (25, { a [re "namespace", re "pod", re "container", re "class", re "group", ok] ["container", "pod", "namespace"] with top := some 10 }),
    (125, { a [re "namespace", re "pod", re "container", re "class", re "group", failed] ["container", "pod", "namespace"] with top := some 10 }),
    (16, a [re "namespace", re "pod", re "container", ok] ["class"]),
    (22, a [re "namespace", re "pod", re "container", failed] ["class"]),
    (11, a (here ++ [ok]) ["class"]),
    (10, a (here ++ [failed]) ["class"]),
    (23, a (here ++ [eqv "class", ok]) ["group"]),
    (24, a (here ++ [eqv "class", failed]) ["group"]),
    (2, a (here ++ [eqv "class", ok]) ["group"]),
    (12, a (here ++ [eqv "class", failed]) ["group"]),
    (20, a [re "container", re "class", re "pod", re "namespace", eqv "class", eqv "group", ok] ["syscall"]),
    (21, a [re "container", re "class", re "pod", re "namespace", eqv "class", eqv "group", failed] ["syscall", "err"]),
    (9, a [re "container", re "class", re "pod", re "namespace", eqv "class", eqv "group", ok] ["syscall"]),
    (13, a (here ++ [eqv "class", eqv "group", failed]) ["syscall"]),
    (51, { a here ["syscall"] with top := some 15 }),
    (29, { a (here ++ [failed]) ["syscall"] with agg := .avg, top := some 15 }),
    (31, a here ["container"]),
    (40, a (here ++ [failed]) ["container"])]

end Swoll.Dashboard
