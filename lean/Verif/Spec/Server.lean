import Verif.Model.Server
/-
Histories of the server's job lists.
-/
namespace Swoll.Spec.Server
open Swoll.Server

variable {Id : Type} [DecidableEq Id]

/-- The request has not been answered yet. -/
def Active (t : Thread Id) : Prop := ∀ c, t.pc ≠ .done c

/-- No request is being handled that is about this id. -/
def Quiet (s : State Id) (id : Id) : Prop := ∀ t ∈ s.threads, Active t → t.id ≠ id

/-- From `s`, requests come and are handled in the order `as`, and no two requests about the same id
overlap. Requests about different ids may overlap in any way. -/
def Apart (s : State Id) : List (Action Id) → Prop
  | [] => True
  | .create q u ok :: as => Quiet s (q.getD u) ∧ Apart (step s (.create q u ok)) as
  | .delete id :: as => Quiet s id ∧ Apart (step s (.delete id)) as
  | .step i hub :: as => Apart (step s (.step i hub)) as

/-- A job runs from its creation until it leaves the running list. -/
def Runs (s : State Id) (j : Job) (id : Id) : Prop := .created j id ∈ s.log ∧ .removed j id ∉ s.log

end Swoll.Spec.Server
