import Verif.Model.Admit
import Verif.Spec.Wire
/-
What a well-written trace looks like.
-/
namespace Swoll.Spec.Admit
open Swoll.Json (Str Json)

/-- A text. -/
def Text (v : Json) : Prop := ∃ s, v = .str s

/-- A list of texts. -/
def Texts (v : Json) : Prop := ∃ l, v = .arr l ∧ ∀ x ∈ l, Text x

/-- Labels. -/
def Labels (v : Json) : Prop := ∃ l, v = .obj l ∧ ∀ e ∈ l, Text e.2

/-- A condition on a label: a key, an operator and maybe values. -/
def Condition (v : Json) : Prop := ∃ l, v = .obj l ∧ (∃ x, ("key".toList, x) ∈ l) ∧ (∃ x, ("operator".toList, x) ∈ l) ∧
  ∀ e ∈ l, e.1 = "key".toList ∧ Text e.2 ∨ e.1 = "operator".toList ∧ Text e.2 ∨ e.1 = "values".toList ∧ Texts e.2

/-- A selector. -/
def Selector (v : Json) : Prop := ∃ l, v = .obj l ∧ ∀ e ∈ l, e.1 = "matchLabels".toList ∧ Labels e.2 ∨
  e.1 = "matchExpressions".toList ∧ ∃ xs, e.2 = .arr xs ∧ ∀ x ∈ xs, Condition x

/-- A number without a fraction and an exponent. -/
def Integer (v : Json) : Prop := ∃ s, v = .num s ∧ '.' ∉ s ∧ 'e' ∉ s ∧ 'E' ∉ s

/-- A field of a request, of the right kind. -/
def Field (e : Str × Json) : Prop :=
  (e.1 = "labelSelector".toList ∨ e.1 = "fieldSelector".toList) ∧ Selector e.2 ∨
  (e.1 = "hostSelector".toList ∨ e.1 = "syscalls".toList) ∧ Texts e.2 ∨
  e.1 = "duration".toList ∧ Text e.2 ∨ e.1 = "sampleRate".toList ∧ Integer e.2

/-- A trace with these metadata and this request. -/
def doc (about spec : List (Str × Json)) : Json := .obj [("apiVersion".toList, .str "tools.swoll.criticalstack.com/v1alpha1".toList),
  ("kind".toList, .str "Trace".toList), ("metadata".toList, .obj about), ("spec".toList, .obj spec)]

/-- Its duration is one, and its sample rate is a number of 64 bits. -/
def Readable (e : Str × Json) : Prop :=
  (e.1 = "duration".toList → ∃ s d, e.2 = .str s ∧ Spec.Duration.Means s d) ∧
  (e.1 = "sampleRate".toList → ∃ s n, e.2 = .num s ∧ Spec.Wire.Whole s n)

end Swoll.Spec.Admit
