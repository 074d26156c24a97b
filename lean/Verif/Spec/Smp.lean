import Verif.Model.Smp
import Verif.Spec.Filter
/-
Specification of the probe on several CPUs.
-/
namespace Swoll.Spec.Smp
open Swoll Swoll.Filter Swoll.Probe Swoll.Smp

/-- The number of calls that returned on a CPU during the schedule and are to be counted under the entry. -/
def returned (k : MKey) : MState → List MAct → Nat
  | _, [] => 0
  | s, a :: as =>
    (match a with
      | .call c (.exit ns nr err _) => if s.cpu c = .idle ∧ keyOf ns nr err = k then 1 else 0
      | _ => 0) + returned k (mstep s a).1 as

/-- The handler on CPU `c` is between its copy of the entry and its update of it. -/
def Copying (s : MState) (c : Nat) (k : MKey) : Prop := ∃ v b, s.cpu c = .store k v b

/-- At no time of the schedule are two handlers between their copy and their update of the entry, and the
agent does not delete it. -/
def Alone (k : MKey) (as : List MAct) : Prop :=
  (∀ a ∈ as, a ≠ .delete k) ∧
  ∀ pre suf, as = pre ++ suf → ∀ c d, Copying (mrun .init pre).1 c k → Copying (mrun .init pre).1 d k → c = d

/-- The handler on CPU `c` is between reading and writing the sample counter. -/
def Sampling (s : SState) (c : Nat) : Prop := ∃ n, s.cpu c = .sample n

/-- At no time of the schedule are two handlers between reading and writing the sample counter. -/
def AloneSampling (v : FilterVal) (as : List SAct) : Prop :=
  ∀ pre suf, as = pre ++ suf → ∀ c d, Sampling (srun (.fresh v) pre).1 c → Sampling (srun (.fresh v) pre).1 d → c = d

/-- What should come of the handlers of one thread: an exit reports the entry before it if it is of the same
system call. The first result are the events, the second the entry that waits for its exit. -/
def paired (t : BitVec 64) : Option EvKey → List PJob → List Event × Option EvKey
  | p, [] => ([], p)
  | _, .enter k :: js => paired t (some k) js
  | none, .exit _ _ _ _ :: js => paired t none js
  | some k, .exit id ns now ret :: js =>
    let q := paired t none js
    (if id = k.id then ⟨t, k.uidGid, id.setWidth 32, ns, k.entr, now, k.args, ret⟩ :: q.1 else q.1, q.2)

/-- The handlers of a thread among those started. -/
def jobsOf (t : BitVec 64) (l : List (BitVec 64 × PJob)) : List PJob :=
  l.filterMap fun x => if x.1 = t then some x.2 else none

/-- The events of a thread. -/
def eventsOf (t : BitVec 64) (l : List Event) : List Event := l.filter fun e => e.pidTid = t

/-- No CPU works for the thread. -/
def Away (s : PSt) (t : BitVec 64) : Prop := ∀ c, (s.cpu c).thread ≠ some t

end Swoll.Spec.Smp
