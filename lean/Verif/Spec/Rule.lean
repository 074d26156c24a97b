import Verif.Spec.Filter
/-
What a rule that is made of options says, without flags and keys.
-/
namespace Swoll.Spec.Rule
open Swoll Swoll.Syscalls Swoll.Filter Swoll.Spec.Filter

/-- The options a rule can be made of. -/
inductive Opt where
  /-- for the calls that are shown, or for those that are counted -/
  | mode (metrics : Bool)
  /-- for this system call -/
  | call (k : Key)
  /-- in this pid namespace; -1 is none -/
  | ns (n : Int)
  /-- of this process -/
  | pid (p : Int)
  | drop
  | allow
  /-- only one in so many -/
  | rate (r : BitVec 64)

/-- The option of the API. -/
def Opt.fn (tbl : Syscalls) : Opt → RuleOption
  | .mode true => setModeMetrics
  | .mode false => setModeSyscall
  | .call k => setSyscall tbl k
  | .ns n => setPidNamespace n
  | .pid p => setPid p
  | .drop => setActionDrop
  | .allow => setActionAllow
  | .rate r => setSampleRate r

/-- `NewFilterRule` with these options. -/
def build (tbl : Syscalls) (opts : List Opt) : Option Rule := newFilterRule (opts.map (Opt.fn tbl))

/-- The last of some that says something. -/
def last {α β : Type} (f : α → Option β) (l : List α) : Option β := l.reverse.findSome? f

/-- The system call of the options. -/
def callOf (tbl : Syscalls) : List Opt → Option (BitVec 32) :=
  last fun | .call k => (lookup tbl k).map (fun s => BitVec.ofNat 32 s.nr) | _ => none

/-- The namespace of the options. -/
def nsOf : List Opt → Option (BitVec 32) := last fun | .ns n => scope n | _ => none

/-- The process of the options. -/
def pidOf : List Opt → Option (BitVec 32) := last fun | .pid p => some (BitVec.ofInt 32 p) | _ => none

/-- Whether the calls are let through; they are, if nothing is said. -/
def actionOf (opts : List Opt) : BitVec 8 :=
  (last (fun | .drop => some 1#8 | .allow => some 0#8 | _ => none) opts).getD 0#8

/-- One in how many calls is let through; 0 for all of them. -/
def rateOf (opts : List Opt) : BitVec 64 := (last (fun | .rate r => some r | _ => none) opts).getD 0

/-- For shown calls, or for counted ones, but not both. -/
def ModeIs (metrics : Bool) (opts : List Opt) : Prop := .mode metrics ∈ opts ∧ .mode (!metrics) ∉ opts

/-- The rule is about this call. -/
def About (tbl : Syscalls) (opts : List Opt) (ns proc nr : BitVec 32) : Prop :=
  (∀ x, callOf tbl opts = some x → nr = x) ∧ (∀ x, nsOf opts = some x → ns = x) ∧ (∀ x, pidOf opts = some x → proc = x)

/-- The levels with rules that are asked before this one. -/
def levelOf (tbl : Syscalls) (opts : List Opt) : Level :=
  match callOf tbl opts, nsOf opts, pidOf opts with
  | none, _, _ => .nsWide
  | some _, some _, some _ => .nsProcCall
  | some _, some _, none => .nsCall
  | some _, none, some _ => .procCall
  | some _, none, none => .call

/-- The rules that are asked for at all: for a system call, but not `read` if it is for counting; or for a namespace
alone, if it is for counting. -/
def Asked (tbl : Syscalls) (metrics : Bool) (opts : List Opt) : Prop :=
  match callOf tbl opts with
  | some x => metrics = false ∨ x ≠ 0
  | none => metrics = true ∧ nsOf opts ≠ none ∧ pidOf opts = none

/-- Every rule in the table has its kind switched on. -/
def Switched (m : KMaps) : Prop := ∀ k v, GoMap.get m.filter k = some v → isFilterEnabled m k.flags = true

/-- What the tables can come to: any rules are added, also in vain, and removed, and any calls are looked up. -/
inductive Reached : KMaps → Prop where
  | empty : Reached KMaps.empty
  | add {m : KMaps} (r : Rule) (f : Faults) : Reached m → Reached (addRule m r f).1
  | del {m : KMaps} (r : Rule) : Reached m → Reached (delRule m r).1
  | enable {m : KMaps} : Reached m → Reached (Filter.enable m)
  | eval {m : KMaps} (mode : BitVec 16) (ns proc nr : BitVec 32) : Reached m → Reached (runNfilter m mode ns proc nr).1

/-- The mode in the tables. -/
def bits : Bool → BitVec 16
  | true => 4#16
  | false => 2#16

end Swoll.Spec.Rule
