import Verif.Spec.Probe
/-
What is going on on the machine, told from the history alone: who is inside a call, and which kinds of calls are counted.
-/
namespace Swoll.Spec.Bounded
open Swoll Swoll.Syscalls Swoll.Probe Swoll.Spec.Filter Swoll.Spec.Probe

/-- Threads inside a call, before and after one operation. -/
def goes (l : List (BitVec 64)) : POp → List (BitVec 64)
  | .enter c _ _ => c.pidTgid :: l.filter (· ≠ c.pidTgid)
  | .exit c _ _ => l.filter (· ≠ c.pidTgid)
  | _ => l

/-- The threads that have begun a call and not come back from it. A thread that ends in a call never comes back. -/
def inside (hist : List POp) : List (BitVec 64) := hist.foldl goes []

/-- At no time more than `n` threads are inside a call. -/
def AtMost (n : Nat) (hist : List POp) : Prop := ∀ pre post, hist = pre ++ post → (inside pre).length ≤ n

/-- What is counted at an operation: the call by its namespace, number and error (no error while it is not known). -/
def kind (a : Abs) : POp → Option MKey
  | .enter c _ _ => if counted a c then some ⟨c.ns, c.nr, 0⟩ else none
  | .exit c ret _ => if counted a c then some ⟨c.ns, c.nr, BitVec.ofNat 16 (bucket ret)⟩ else none
  | _ => none

/-- All that is counted is of at most `n` kinds. -/
def Kinds (tbl : Syscalls) (n : Nat) (hist : List POp) : Prop :=
  ∃ ks : List MKey, ks.length ≤ n ∧
    ∀ pre o post k, hist = pre ++ o :: post → kind (rulesAfter tbl pre) o = some k → k ∈ ks

/-- Is the operation one of thread `p`? -/
def By (p : BitVec 64) : POp → Prop
  | .enter c _ _ => c.pidTgid = p
  | .exit c _ _ => c.pidTgid = p
  | .execve c _ => c.pidTgid = p
  | .api _ => False

/-- The same operation on a machine with room for everything. -/
def roomy : POp → POp
  | .enter c args _ => .enter c args false
  | o => o

end Swoll.Spec.Bounded
