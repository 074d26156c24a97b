import Verif.Model.Cluster
/-
What users expect of selectors and of the pods an observer watches.
-/
namespace Swoll.Spec.Cluster
open Swoll Swoll.Cluster
open Swoll.JobArgs (Str)

/-! ### Selectors, as Kubernetes explains them -/

/-- An expression holds for the value, if any, of its key. -/
def Holds (e : Expr) (value : Option Str) : Prop :=
  match e.op with
  | .isIn => ∃ v ∈ e.values, value = some v
  | .notIn => ∀ v ∈ e.values, value ≠ some v
  | .exist => value ≠ none
  | .doesNotExist => value = none

/-- All labels and all expressions of a selector are met. -/
def Selects (s : Selector) (value : Str → Option Str) : Prop :=
  (∀ k v, s.matchLabels.get k = some v → value k = some v) ∧ ∀ e ∈ s.matchExpressions, Holds e (value e.key)

/-- A trace in a namespace is about the pods of the namespace that both its selectors select; a field that
is not set is empty. -/
def Wants (ns : String) (s : Sel) (p : Pod) : Prop :=
  p.ns = ns ∧ Selects s.label p.labels.get ∧ Selects s.field (fun k => some ((p.fields.get k).getD []))

/-- Labels the API server accepts in a selector. -/
def GoodLabels (a : Api) (m : GoMap Str Str) : Prop :=
  m.NodupKeys ∧ ∀ e ∈ m, JobArgs.validKey a.rules e.1 = true ∧ JobArgs.validValue a.rules e.2 = true

/-- Fields pods can be selected by, with values made of the characters of labels. -/
def GoodFields (a : Api) (m : GoMap Str Str) : Prop :=
  m.NodupKeys ∧ ∀ e ∈ m, a.field e.1 = true ∧ e.1.all JobArgs.labelChar = true ∧ e.2.all JobArgs.labelChar = true

end Swoll.Spec.Cluster
