import Verif.Model.Lifecycle
/-
What is held of the kernel, told from the calls made to the module; and which calls of a history were
successful.
-/
namespace Swoll.Spec.Lifecycle
open Swoll.Lifecycle

/-- What a probe holds: the loaded maps and programs, attached tracepoints, pollers. -/
inductive Resource where
  | program
  | tracepoint (name : String)
  | poller (run : Nat)
  deriving DecidableEq, Repr

/-- The change of what is held by one call. The module knows one load, and one attachment of each
tracepoint, the last; it closes those. It does not know of the pollers. -/
def held1 (r : Resource) (n : Nat) : Call → Nat
  | .load true => if r = .program then n + 1 else n
  | .enable tp true => if r = .tracepoint tp then n + 1 else n
  | .pollStart i => if r = .poller i then n + 1 else n
  | .pollStop i => if r = .poller i then n - 1 else n
  | .close true => match r with | .poller _ => n | _ => n - 1
  | _ => n

/-- How many of a resource are held after these calls. -/
def held (r : Resource) (calls : List Call) : Nat := calls.foldl (held1 r) 0

/-- Whether the last successful InitProbe came after the last Close. -/
def ready : List (Action × Res) → Bool → Bool
  | [], b => b
  | (.initProbe _ _, .ok) :: rest, _ => ready rest true
  | (.close _, _) :: rest, _ => ready rest false
  | _ :: rest, b => ready rest b

/-- Actions in which no initialisation step fails halfway, no callback fails, and the module can be
closed. (Load and the perf map may fail.) -/
def Clean : Action → Prop
  | .initProbe _ opts => ∀ o ∈ opts, o = true
  | .initTracepoints answers => ∀ i, answers i = true
  | .run _ answers _ => ∀ i, answers i = true
  | .receive _ _ ok => ok = true
  | .cancel _ => True
  | .close ok => ok = true

/-- The messages for the `i`th Run up to its end: the first one the callback refuses, or the end of its
context. -/
def heard (i : Nat) : List Action → List Msg
  | [] => []
  | .receive j m ok :: rest => if j = i then m :: (if ok then heard i rest else []) else heard i rest
  | .cancel j :: rest => if j = i then [] else heard i rest
  | _ :: rest => heard i rest

/-- The events among messages. -/
def events : List Msg → List (List UInt8)
  | [] => []
  | .event d :: rest => d :: events rest
  | .lost _ :: rest => events rest

end Swoll.Spec.Lifecycle
