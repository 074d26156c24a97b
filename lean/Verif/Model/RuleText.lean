import Verif.Model.Filter
import Verif.Model.Flags
/-
The text of a filter rule, as the hub and `swoll trace` log the rules in force (pkg/topology/hub.go:301-309,
cmd/trace.go:257-273): the five `String` methods at the end of pkg/kernel/filter.go. Text is a list of characters; the verb
`%d` is `Flags.digits`. Padding is left out of keys and values, as in Model/Filter, and is not printed.
-/
namespace Swoll.RuleText
open Swoll Swoll.Syscalls Swoll.Filter

/-- `strings.Join(out, "|")`. (Library, used at pkg/kernel/filter.go:355.) -/
def join : List (List Char) → List Char
  | [] => []
  | [s] => s
  | s :: ss => s ++ '|' :: join ss

/-- `(filterFlag).String`, pkg/kernel/filter.go:333-356. -/
def flagText (f : BitVec 16) : List Char :=
  let out : List (List Char) := []
  let out := if f &&& fmodeSyscall ≠ 0 then out ++ ["FILTER_MODE_SYSCALL".toList] else out
  let out := if f &&& fmodeMetrics ≠ 0 then out ++ ["FILTER_MODE_METRICS".toList] else out
  let out := if f &&& ftypePid ≠ 0 then out ++ ["FILTER_TYPE_PID".toList] else out
  let out := if f &&& ftypePidNS ≠ 0 then out ++ ["FILTER_TYPE_PID_NS".toList] else out
  let out := if f &&& ftypeSyscall ≠ 0 then out ++ ["FILTER_TYPE_SYSCALL".toList] else out
  join out

/-- `(filterAction).String`, pkg/kernel/filter.go:358-366. -/
def actionText (a : BitVec 8) : List Char :=
  if a = factionAllow then "ACTION_ALLOW".toList
  else if a = factionDrop then "ACTION_DROP".toList
  else "ACTION_UNKNOWN".toList

/-- The name of the call, pkg/kernel/filter.go:369-375. -/
def callName (tbl : Syscalls) (k : FilterKey) : List Char :=
  match lookup tbl (.int k.syscall.toInt) with
  | none => "ALL".toList
  | some sc => sc.name.toList

/-- `(filterKey).String`, pkg/kernel/filter.go:368-379. -/
def keyText (tbl : Syscalls) (k : FilterKey) : List Char :=
  "flags=".toList ++ flagText k.flags ++ ", pid-namespace=".toList ++ Flags.digits k.pidns.toNat ++
    ", thread-id=".toList ++ Flags.digits k.thrid.toNat ++ ", syscall=".toList ++ callName tbl k

/-- `(filterVal).String`, pkg/kernel/filter.go:381-384. -/
def valText (v : FilterVal) : List Char :=
  "sample-rate=".toList ++ Flags.digits v.sampleRate.toNat ++ ", current-sample-count=".toList ++
    Flags.digits v.sampleCount.toNat ++ ", hits=".toList ++ Flags.digits v.hits.toNat ++ ", action=".toList ++ actionText v.action

/-- `(*FilterRule).String`, pkg/kernel/filter.go:386-388. -/
def ruleText (tbl : Syscalls) (r : Rule) : List Char :=
  "{".toList ++ keyText tbl r.key ++ ", ".toList ++ valText r.val ++ "}".toList

/-- The lines logged by the hub and by `swoll trace`: a line for each rule `GetRunning` returns. (hub.go:301-309,
trace.go:261-267) -/
def listing (tbl : Syscalls) (filter : GoMap FilterKey FilterVal) (fuel : Nat) : Option (List (List Char)) :=
  (getRunning filter fuel).map (·.map (ruleText tbl))

end Swoll.RuleText
