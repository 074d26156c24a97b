import Verif.Model.Hub
/-
What users expect of the hub: a list of registrations "this job wants syscall nr of pid
namespace ns", appended to by PushJob and cut down by DeleteTrace.
-/
namespace Swoll.Spec.Hub
open Swoll.Filter hiding Op step run
open Swoll Swoll.Syscalls Swoll.Hub

/-- A registration. -/
structure Reg where
  job : Job
  ns : Int
  nr : Int
  deriving DecidableEq, Repr

/-- The registration a context stands for. -/
def reg (c : Ctx) : Reg := ⟨c.job, c.ns, c.nr⟩

/-- Effect of an operation on the registrations. -/
def regStep (rs : List Reg) : Op → List Reg
  | .push j ns nr => rs ++ [⟨j, ns, nr⟩]
  | .delete id => rs.filter (fun r => r.job.id ≠ id)
  | _ => rs

/-- Registrations after a history. -/
def registered (ops : List Op) : List Reg := ops.foldl regStep []

/-- Registrations of a pair, oldest first. -/
def ofPair (rs : List Reg) (ns nr : Int) : List Reg := rs.filter (fun r => r.ns = ns ∧ r.nr = nr)

/-- Registrations of a job id, oldest first. -/
def ofId (rs : List Reg) (id : String) : List Reg := rs.filter (fun r => r.job.id = id)

/-- A lookup result that stands for a list: nil for the empty one. -/
def listing (l : Option (List Ctx)) : List Reg := (l.getD []).map reg

/-- The kernel filter entry for a syscall number in a namespace, if the number is known. -/
def ruleKey (tbl : Syscalls) (ns nr : Int) : Option FilterKey :=
  (lookup tbl (.int nr)).map (fun s => ⟨(if ns = -1 then 0x8002#16 else 0xC002#16),
    (if ns = -1 then 0 else BitVec.ofInt 32 ns), 0, BitVec.ofNat 32 s.nr⟩)

/-- Earliest registration of least rate. -/
def IsLowest (rs : List Reg) (r : Reg) : Prop :=
  ∃ pre post, rs = pre ++ r :: post ∧ (∀ x ∈ pre, r.job.rate < x.job.rate) ∧
    (∀ x ∈ post, r.job.rate ≤ x.job.rate)

/-- The syscall table is keyed by number, numbers are below 333, and whatever a key finds is
also found by its number (proved for the real table). -/
def TableOK (tbl : Syscalls) : Prop :=
  (∀ k s, lookup tbl k = some s → lookup tbl (.int s.nr) = some s ∧ s.nr < 333) ∧
  (∀ n s, lookup tbl (.int n) = some s → (s.nr : Int) = n)

/-- Process a sequence of events; the publications of each. -/
def handleAll : Hub → List Event → Option (Hub × List (List Out))
  | h, [] => some (h, [])
  | h, e :: es =>
    match handleEvent h e with
    | none => none
    | some (h1, o) => (handleAll h1 es).map (fun r => (r.1, o :: r.2))

/-- Pid namespace ids are positive 32 bit numbers larger than any syscall number (they are
inode numbers, in practice above 4026531836). -/
def SanePair (ns nr : Int) : Prop := 0 < ns ∧ ns < 2 ^ 32 ∧ nr < ns

/-- Registrations and sampling look-ups concern sane pairs only. -/
def SaneOp : Op → Prop
  | .push _ ns nr => SanePair ns nr
  | .swap _ ns nr => SanePair ns nr
  | _ => True

/-- The operation takes the rule of the pair out of the kernel filter (a stop notification). -/
def Stops (tbl : Syscalls) (ns nr : Int) : Op → Prop
  | .filter (.removeSyscall k ns') =>
    ∃ s k', lookup tbl k = some s ∧ ruleKey tbl ns' s.nr = some k' ∧ ruleKey tbl ns nr = some k'
  | _ => False

/-- The operation gives the rule of the pair a sampling rate. -/
def Samples (tbl : Syscalls) (ns nr : Int) : Op → Prop
  | .filter (.addSampled k ns' _ _) =>
    ∃ s k', lookup tbl k = some s ∧ ruleKey tbl ns' s.nr = some k' ∧ ruleKey tbl ns nr = some k'
  | _ => False

/-- A notification to a job about a container. -/
structure Note where
  start : Bool
  pod : String
  name : String

/-- The host name reported for a container. -/
def Note.host (n : Note) : String := n.name ++ "." ++ n.pod

/-- The job's host table after notifications. -/
def hostsAfter (ns : List Note) : GoMap String Bool :=
  ns.foldl (fun m n => if n.start then addContainer m n.pod n.name else removeContainer m n.pod n.name) []

end Swoll.Spec.Hub
