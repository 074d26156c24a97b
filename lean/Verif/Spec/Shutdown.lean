import Verif.Model.Shutdown
/-
Histories of the server as an administrator and its clients see them.
-/
namespace Swoll.Spec.Shutdown
open Swoll.Shutdown

/-- Milliseconds that pass. -/
def ticks (acts : List Act) : Nat := acts.count .tick

/-- Nothing but an interrupt ends the program. -/
def Calm (acts : List Act) : Prop := .terminate ∉ acts ∧ .hubFails ∉ acts

/-- Requests sent. -/
def sent (acts : List Act) : List Nat :=
  acts.filterMap fun
    | .request id => some id
    | _ => none

end Swoll.Spec.Shutdown
