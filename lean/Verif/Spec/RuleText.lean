import Verif.Model.RuleText
import Verif.Spec.Filter
import Verif.Spec.Syscalls
/-
What the log should say of the rules in force: one line for each rule the user has installed, in terms of what the user
asked for and of the calls since.
-/
namespace Swoll.Spec.RuleText
open Swoll Swoll.Syscalls Swoll.Filter Swoll.Spec.Filter Swoll.Spec.Syscalls

/-- A number in decimal. -/
def num (n : Nat) : List Char := Flags.digits n

/-- The line of a rule for one call, in one namespace or in all: its sampling rate, how often it was consulted for a sample
and how often it matched. The counters are 32 and 64 bits wide, and without a rate the former does not count. -/
def callLine (scope : Option (BitVec 32)) (name : String) (s : Sample) : List Char :=
  (match scope with
    | none => "{flags=FILTER_MODE_SYSCALL|FILTER_TYPE_SYSCALL, pid-namespace=0".toList
    | some ns => "{flags=FILTER_MODE_SYSCALL|FILTER_TYPE_PID_NS|FILTER_TYPE_SYSCALL, pid-namespace=".toList ++ num ns.toNat) ++
  ", thread-id=0, syscall=".toList ++ name.toList ++ ", sample-rate=".toList ++ num s.rate ++
  ", current-sample-count=".toList ++ num (if s.rate = 0 then 0 else s.seen % 2 ^ 32) ++
  ", hits=".toList ++ num (s.seen % 2 ^ 64) ++ ", action=ACTION_ALLOW}".toList

/-- The line of the metrics of a namespace, or of none in particular, after `hits` calls. -/
def metricsLine (scope : Option (BitVec 32)) (hits : Nat) : List Char :=
  (match scope with
    | none => "{flags=FILTER_MODE_METRICS, pid-namespace=0".toList
    | some ns => "{flags=FILTER_MODE_METRICS|FILTER_TYPE_PID_NS, pid-namespace=".toList ++ num ns.toNat) ++
  ", thread-id=0, syscall=ALL, sample-rate=0, current-sample-count=0, hits=".toList ++ num (hits % 2 ^ 64) ++ ", action=ACTION_ALLOW}".toList

/-- The metrics the user has asked for: is the filter on, and how many calls each request has counted since it was last
made. (`RemoveMetrics` fails and changes nothing, see C27.) -/
structure Meter where
  on : Bool
  count : Option (BitVec 32) → Option Nat

/-- What each operation does to them. -/
def Meter.step (m : Meter) : Op → Meter
  | .addMetrics ns f => if f.config || f.filter then m else { m with count := fun sc => if sc = scope ns then some 0 else m.count sc }
  | .enable => { m with on := true }
  | .metricsEvent ns _ _ => if m.on then { m with count := fun sc => if sc = some ns then (m.count sc).map (· + 1) else m.count sc } else m
  | _ => m

/-- After a history. -/
def meter (hist : List Op) : Meter := hist.foldl Meter.step ⟨false, fun _ => none⟩

/-- A rule made from the options of `NewFilterRule`, for calls the program knows or for all (-1). -/
def Proper (r : Rule) : Prop :=
  r.key.flags &&& 0xE006#16 = r.key.flags ∧ (r.val.action = 0 ∨ r.val.action = 1) ∧
  (r.key.syscall = -1 ∨ ∃ name nr c g, Entry name nr c g ∧ r.key.syscall = BitVec.ofNat 32 nr)

end Swoll.Spec.RuleText
