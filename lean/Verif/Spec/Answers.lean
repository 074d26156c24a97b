import Verif.Model.Answers
import Verif.Spec.Wire
/-
What an answer of the server should be, and what a refused client should be told.
-/
namespace Swoll.Spec.Answers
open Swoll.Answers (Seen)
open Swoll.Json (Str Json)
open Swoll.Spec.Json (Says)

/-- The answer has this status, and its body is JSON and says this. -/
def Answers (a : Seen) (status : Nat) (v : Json) : Prop := a.status = status ∧ Says a.body v

/-- An answer with an error and this reason. -/
def Refuses (a : Seen) (status : Nat) (why : Str) : Prop := Answers a status (.obj [("error".toList, .str why)])

/-- The answer says that it is JSON. -/
def Labelled (a : Seen) : Prop := ∃ rest, a.label = some ("application/json".toList ++ rest)

/-- A text for the user that has in it the JSON of a reason. -/
def Tells (text why : Str) : Prop :=
  ∃ pre t post, text = pre ++ t ++ post ∧ Says t (.obj [("error".toList, .str why)])

end Swoll.Spec.Answers
