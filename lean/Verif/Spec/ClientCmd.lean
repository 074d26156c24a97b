import Verif.Model.ClientCmd
/-
What the commands of `swoll client` promise when they are given several endpoints, in terms of the
jobs on the servers, what is printed and how the process ends.
-/
namespace Swoll.Spec.ClientCmd
open Swoll.ClientCmd

/-- The events server `s` sends in this part of a history. -/
def sent (s : Server) (acts : List WAct) : List Nat :=
  acts.filterMap (fun a => match a with
    | .publish t (.event ev) => if t = s then some ev else none
    | _ => none)

/-- The events server `s` sends once goroutine `k` has opened its websocket. -/
def sentTo (s : Server) (k : Nat) : List WAct → List Nat
  | [] => []
  | a :: rest => if a = .connect k then sent s rest else sentTo s k rest

/-- What goroutine `k` of `watch` got printed, in order. -/
def shownBy (k : Nat) (printed : List (Nat × Nat)) : List Nat :=
  (printed.filter (fun p => p.1 = k)).map (·.2)

/-- Nothing the servers sent is longer than the client reads. -/
def Short (acts : List WAct) : Prop := ∀ s, WAct.publish s .tooLong ∉ acts

/-- No request to delete ends in an error that leaves the job running. -/
def Obeyed (acts : List Act) : Prop := ∀ k, Act.deleted k .failed ∉ acts

/-- The process has ended, with this code. -/
def EndsWith (st : St) (code : Nat) : Prop := st.phase = .ended code

/-- All endpoints have a job whose stream goes on: none has been given up or deleted. -/
def AllStreaming (st : St) : Prop :=
  st.phase = .looping ∧ ∀ p ∈ st.workers, p ≠ .deleting ∧ p ≠ .finished

/-- The events server `s` sends in this part of a history of `create --oneshot`. -/
def sentOnce (s : Server) (acts : List Act) : List Nat :=
  acts.filterMap (fun a => match a with
    | .publish t (.event ev) => if t = s then some ev else none
    | _ => none)

/-- The events server `s` sends once goroutine `k` has opened its websocket. -/
def sentOnceTo (s : Server) (k : Nat) : List Act → List Nat
  | [] => []
  | a :: rest => if a = .connect k then sentOnce s rest else sentOnceTo s k rest

end Swoll.Spec.ClientCmd
