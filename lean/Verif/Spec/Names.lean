import Verif.Model.Names
/-
The names the API server gives to the objects of a custom resource, by Kubernetes' rules.
-/
namespace Swoll.Spec.Names
open Swoll.JobArgs (Str)

/-- A small letter or a digit. -/
def Small (c : Char) : Prop := 'a' ≤ c ∧ c ≤ 'z' ∨ '0' ≤ c ∧ c ≤ '9'

/-- Small letters, digits and dashes, with none of the latter at the ends. -/
def Word (s : Str) : Prop := ∃ c d, s.head? = some c ∧ s.getLast? = some d ∧ Small c ∧ Small d ∧ ∀ x ∈ s, Small x ∨ x = '-'

/-- Words with dots between them. -/
inductive Dotted : Str → Prop where
  | word {s} : Word s → Dotted s
  | more {s t} : Word s → Dotted t → Dotted (s ++ '.' :: t)

/-- The name of an object: at most 253 characters. -/
def Name (s : Str) : Prop := Dotted s ∧ s.length ≤ 253

end Swoll.Spec.Names
