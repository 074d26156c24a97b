import Verif.Model.Probe
import Verif.Spec.Filter
/-
Specification of the probe: which calls are recorded, counted and timed, in terms of the
history alone and the abstract rule set of `Spec/Filter`.
-/
namespace Swoll.Spec.Probe
open Swoll Swoll.Syscalls Swoll.Filter Swoll.Probe Swoll.Spec.Filter

/-- The rule set after an operation: kernel handlers only advance sampling counters. -/
def absStep (tbl : Syscalls) (a : Abs) : POp → Abs
  | .api o => (a.step tbl o).1
  | .enter c _ _ => if c.nr = nrExecve then a else (a.step tbl (.callEvent c.ns c.proc c.nr)).1
  | .exit _ _ _ => a
  | .execve c _ => (a.step tbl (.callEvent c.ns c.proc c.nr)).1

/-- The rule set after a history. -/
def rulesAfter (tbl : Syscalls) (hist : List POp) : Abs := hist.foldl (absStep tbl) Abs.empty

/-- The rule set lets this call through. -/
def Passes (tbl : Syscalls) (a : Abs) (c : Ctx) : Prop := (a.step tbl (.callEvent c.ns c.proc c.nr)).2 = true

/-- Is the operation an exit of thread `p`? -/
def IsExit (p : BitVec 64) : POp → Prop
  | .exit c _ _ => c.pidTgid = p
  | _ => False

/-- Is the operation an enter of thread `p`? -/
def IsEnter (p : BitVec 64) : POp → Prop
  | .enter c _ _ => c.pidTgid = p
  | _ => False

/-- The enter at this point is remembered by the probe: let through, not execve, not refused
for lack of space. -/
def Recorded (tbl : Syscalls) (a : Abs) (c : Ctx) (full : Bool) : Prop :=
  c.nr ≠ nrExecve ∧ Passes tbl a c ∧ full = false

/-- Metrics are collected for the call at this point. -/
def counted (a : Abs) (c : Ctx) : Bool := a.enabled && a.met c.ns && c.nr != 0xFFFFFFFF#32

/-- The errno bucket of a return value: errors 1..254 have their own bucket, everything else
(success, and errors from 255) goes to bucket 0. -/
def bucket (ret : BitVec 64) : Nat :=
  let r := (ret.setWidth 32).toInt
  if -255 < r ∧ r < 0 then (-r).toNat else 0

/-- Is this operation a completed call counted in bucket (ns, nr, e)? -/
def inBucket (a : Abs) (ns nr : BitVec 32) (e : Nat) : POp → Bool
  | .exit c ret _ => counted a c && c.ns == ns && c.nr == nr && bucket ret == e
  | _ => false

/-- How many exits of the history are counted in the bucket, starting from rule set `a`. -/
def countFrom (tbl : Syscalls) (a : Abs) (ns nr : BitVec 32) (e : Nat) : List POp → Nat
  | [] => 0
  | o :: os => (inBucket a ns nr e o).toNat + countFrom tbl (absStep tbl a o) ns nr e os

/-- Clock value of the metrics code at an operation. -/
def mtimeOf : POp → Option (BitVec 64)
  | .enter c _ _ => some c.mtime
  | .exit c _ _ => some c.mtime
  | _ => none

/-- The clock never goes back along the history. -/
def ClockMonotone (hist : List POp) : Prop :=
  (hist.filterMap mtimeOf).Pairwise (fun a b => a.toNat ≤ b.toNat)

/-- Sum of durations of the successful calls of (ns, nr) when calls of that pair do not overlap,
starting with `opened` the enter time of the call in progress.  `none`: calls overlap, an exit
without enter, or an error number of 255 or more occurred. -/
def timeFrom (tbl : Syscalls) (a : Abs) (ns nr : BitVec 32) (opened : Option (BitVec 64)) (acc : BitVec 64) :
    List POp → Option (BitVec 64)
  | [] => some acc
  | o :: os =>
    match o with
    | .enter c _ _ =>
      if counted a c && c.ns == ns && c.nr == nr then
        match opened with
        | some _ => none
        | none => timeFrom tbl (absStep tbl a o) ns nr (some c.mtime) acc os
      else timeFrom tbl (absStep tbl a o) ns nr opened acc os
    | .exit c ret _ =>
      if counted a c && c.ns == ns && c.nr == nr then
        match opened with
        | none => none
        | some t =>
          if 0 ≤ (ret.setWidth 32).toInt then
            timeFrom tbl (absStep tbl a o) ns nr none (acc + (c.mtime - t)) os
          else if -255 < (ret.setWidth 32).toInt then timeFrom tbl (absStep tbl a o) ns nr none acc os
          else none
      else timeFrom tbl (absStep tbl a o) ns nr opened acc os
    | _ => timeFrom tbl (absStep tbl a o) ns nr opened acc os

/-- Thread `p` has a recorded enter `c` (with `args`) that no exit of the thread has consumed
and that no later recorded enter of the thread has replaced. -/
def Pending (tbl : Syscalls) (hist : List POp) (p : BitVec 64) (c : Ctx) (args : List (BitVec 64)) : Prop :=
  ∃ pre full mid, hist = pre ++ POp.enter c args full :: mid ∧ c.pidTgid = p ∧
    Recorded tbl (rulesAfter tbl pre) c full ∧
    (∀ o ∈ mid, ¬ IsExit p o) ∧
    (∀ m1 c' args' full' m2, mid = m1 ++ POp.enter c' args' full' :: m2 → c'.pidTgid = p →
      ¬ Recorded tbl (rulesAfter tbl (pre ++ POp.enter c args full :: m1)) c' full')

/-- Between two enters of one thread there is always an exit of that thread. -/
def Bracketed (hist : List POp) : Prop :=
  ∀ p pre e₁ mid e₂ post, hist = pre ++ e₁ :: (mid ++ e₂ :: post) → IsEnter p e₁ → IsEnter p e₂ →
    ∃ o ∈ mid, IsExit p o

end Swoll.Spec.Probe
