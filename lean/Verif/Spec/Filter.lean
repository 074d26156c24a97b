import Verif.Model.Filter
/-
What a user of the filter API expects: the filter is a set of rules, each for one syscall in
one pid namespace (or in every namespace), with an optional sampling rate.  No packed keys,
flags or configuration map appear here.
-/
namespace Swoll.Spec.Filter
open Swoll Swoll.Syscalls Swoll.Filter

/-- An installed rule: its sampling rate (0 = unsampled) and how many calls it has matched
since it was installed. -/
structure Sample where
  rate : Nat
  seen : Nat
  deriving DecidableEq, Repr

/-- Does the next call matching the rule pass?  The counter is 32 bits wide. -/
def Sample.nextPasses (s : Sample) : Bool :=
  s.rate == 0 || (s.seen + 1) % 2 ^ 32 ≤ 1 || (s.seen + 1) % 2 ^ 32 % s.rate == 0

/-- The filter as the user sees it. -/
structure Abs where
  enabled : Bool
  /-- rule for a syscall number, in one namespace (`some ns`) or everywhere (`none`) -/
  sys : Option (BitVec 32) → BitVec 32 → Option Sample
  /-- namespaces for which metrics are collected -/
  met : BitVec 32 → Bool

/-- Nothing installed. -/
def Abs.empty : Abs := ⟨false, fun _ _ => none, fun _ => false⟩

/-- The namespace argument: -1 means every namespace; kernel namespace ids are 32 bit. -/
def scope (ns : Int) : Option (BitVec 32) := if ns = -1 then none else some (BitVec.ofInt 32 ns)

/-- Replace the rule of one (namespace, syscall) pair. -/
def Abs.setRule (a : Abs) (sc : Option (BitVec 32)) (nr : BitVec 32) (v : Option Sample) : Abs :=
  { a with sys := fun sc' nr' => if sc' = sc ∧ nr' = nr then v else a.sys sc' nr' }

/-- The rule deciding a call: the namespace's own rule, else the rule for every namespace. -/
def Abs.decider (a : Abs) (ns nr : BitVec 32) : Option (Option (BitVec 32) × Sample) :=
  match a.sys (some ns) nr with
  | some s => some (some ns, s)
  | none => (a.sys none nr).map (fun s => (none, s))

/-- Expected effect and answer of each operation. `removeMetrics` records what the code does
(see C27): it fails and changes nothing. -/
def Abs.step (tbl : Syscalls) (a : Abs) : Op → Abs × Bool
  | .addSyscall k ns f =>
    match lookup tbl k with
    | none => (a, false)
    | some s => if f.config || f.filter then (a, false)
      else (a.setRule (scope ns) (BitVec.ofNat 32 s.nr) (some ⟨0, 0⟩), true)
  | .addSampled k ns rate f =>
    match lookup tbl k with
    | none => (a, false)
    | some s => if f.config || f.filter then (a, false)
      else (a.setRule (scope ns) (BitVec.ofNat 32 s.nr) (some ⟨rate.toNat % 2 ^ 32, 0⟩), true)
  | .removeSyscall k ns =>
    match lookup tbl k with
    | none => (a, false)
    | some s => (a.setRule (scope ns) (BitVec.ofNat 32 s.nr) none,
        (a.sys (scope ns) (BitVec.ofNat 32 s.nr)).isSome)
  | .addMetrics ns f =>
    if f.config || f.filter then (a, false)
    else match scope ns with
      | none => (a, true)
      | some n => ({ a with met := fun x => if x = n then true else a.met x }, true)
  | .removeMetrics _ => (a, false)
  | .enable => ({ a with enabled := true }, true)
  | .callEvent ns _ nr =>
    if a.enabled then
      match a.decider ns nr with
      | none => (a, false)
      | some (sc, s) => (a.setRule sc nr (some { s with seen := s.seen + 1 }), s.nextPasses)
    else (a, false)
  | .metricsEvent ns _ _ => (a, a.enabled && a.met ns)

/-- Run a history. -/
def Abs.run (tbl : Syscalls) : Abs → List Op → Abs × List Bool
  | a, [] => (a, [])
  | a, o :: os =>
    let r := a.step tbl o
    let r2 := Abs.run tbl r.1 os
    (r2.1, r.2 :: r2.2)

/-- Precedence levels of kernel rules, most specific decision first as documented in probe.c. -/
inductive Level where
  | nsWide | nsProcCall | nsCall | procCall | call
  deriving DecidableEq

/-- The levels in the order they are consulted. -/
def levels : List Level := [.nsWide, .nsProcCall, .nsCall, .procCall, .call]

/-- The rule key of a level for an event. -/
def Level.key (mode : BitVec 16) (ns proc nr : BitVec 32) : Level → FilterKey
  | .nsWide => ⟨mode ||| 0x4000#16, ns, 0, 0xFFFFFFFF#32⟩
  | .nsProcCall => ⟨mode ||| 0xE000#16, ns, proc, nr⟩
  | .nsCall => ⟨mode ||| 0xC000#16, ns, 0, nr⟩
  | .procCall => ⟨mode ||| 0xA000#16, 0, proc, nr⟩
  | .call => ⟨mode ||| 0x8000#16, 0, 0, nr⟩

/-- A rule is active when it is installed and its type is switched on in the configuration. -/
def Active (m : KMaps) (k : FilterKey) (v : FilterVal) : Prop :=
  GoMap.get m.filter k = some v ∧ ∃ b, GoMap.get m.config k.flags = some b ∧ b ≠ 0

/-- `v` at level `l` decides: it is active and no earlier level has an active rule. -/
def Decides (m : KMaps) (mode : BitVec 16) (ns proc nr : BitVec 32) (l : Level) (v : FilterVal) : Prop :=
  ∃ pre post, levels = pre ++ l :: post ∧ Active m (l.key mode ns proc nr) v ∧
    ∀ l' ∈ pre, ∀ v', ¬ Active m (l'.key mode ns proc nr) v'

/-- The call is suppressed by sampling: rate r > 0, and it is neither the first nor an r-th one. -/
def SampledOut (v : FilterVal) : Prop :=
  0 < v.sampleRate.toNat ∧ 1 < (v.sampleCount.toNat + 1) % 2 ^ 32 ∧
    ¬ v.sampleRate.toNat ∣ (v.sampleCount.toNat + 1) % 2 ^ 32

/-- The master switch is on. -/
def Enabled (m : KMaps) : Prop := ∃ b, GoMap.get m.config 1#16 = some b ∧ b ≠ 0

/-- The key of the rule for one syscall in the namespace argument's scope. -/
def pairKey (ns : Int) (nr : Nat) : FilterKey :=
  match scope ns with
  | none => Level.call.key 2#16 0 0 (BitVec.ofNat 32 nr)
  | some n => Level.nsCall.key 2#16 n 0 (BitVec.ofNat 32 nr)

/-- A kernel filter evaluation. -/
structure Ev where
  mode : BitVec 16
  ns : BitVec 32
  proc : BitVec 32
  nr : BitVec 32

/-- Event `e` is decided by the rule stored under key `k`. -/
def DecidedBy (m : KMaps) (e : Ev) (k : FilterKey) : Prop :=
  ∃ l v, Decides m e.mode e.ns e.proc e.nr l v ∧ k = l.key e.mode e.ns e.proc e.nr

/-- Evaluate events one after another, with their verdicts. -/
def evalAll : KMaps → List Ev → KMaps × List (Ev × BitVec 8)
  | m, [] => (m, [])
  | m, e :: es =>
    let r := runNfilter m e.mode e.ns e.proc e.nr
    let r2 := evalAll r.1 es
    (r2.1, (e, r.2) :: r2.2)

/-- Verdict for the `i`-th call (from 1) matching a rule of the given rate and action. -/
def ithVerdict (rate : Nat) (action : BitVec 8) (i : Nat) : BitVec 8 :=
  if rate = 0 ∨ i = 1 ∨ rate ∣ i then action else factionDrop

/-- Outcomes of the operations `ys` performed after history `xs`. -/
def outcomesAfter (tbl : Syscalls) (xs ys : List Op) : List Bool :=
  (run tbl (run tbl KMaps.empty xs).1 ys).2

/-- The event cannot be decided by the rule for (`sc`, `nr`). -/
def Unrelated (sc : Option (BitVec 32)) (nr : BitVec 32) : Op → Prop
  | .callEvent ns _ nr' => nr' ≠ nr ∨ ∃ n, sc = some n ∧ ns ≠ n
  | .metricsEvent _ _ _ => True
  | _ => False

end Swoll.Spec.Filter
