import Verif.Model.Wire
import Verif.Spec.Json
import Verif.Spec.Duration
/-
When two traces are the same trace, which values a trace can have, and which JSON is accepted for one.
-/
namespace Swoll.Spec.Wire
open Swoll Swoll.Wire
open Swoll.Json (Str Json)

/-- The same labels and the same conditions. -/
def SameSelector (a b : Selector) : Prop := (∀ k, GoMap.get a.labels k = GoMap.get b.labels k) ∧ a.exprs = b.exprs

/-- The same request. -/
def SameSpec (a b : Spec) : Prop :=
  SameSelector a.label b.label ∧ SameSelector a.field b.field ∧ a.hosts = b.hosts ∧ a.calls = b.calls ∧
    a.duration = b.duration ∧ a.rate = b.rate

/-- The same trace. -/
def SameTrace (a b : Trace) : Prop := a.ns = b.ns ∧ a.selfLink = b.selfLink ∧ a.job = b.job ∧ SameSpec a.spec b.spec

/-- The values of a program: maps hold a key once, numbers have 64 bits, and durations have a text
(`time.ParseDuration` has none for the least of the numbers). -/
def Values (s : Spec) : Prop :=
  s.label.labels.NodupKeys ∧ s.field.labels.NodupKeys ∧ -(2 ^ 63 : Int) < s.duration ∧ s.duration < 2 ^ 63 ∧
    -(2 ^ 63 : Int) ≤ s.rate ∧ s.rate < 2 ^ 63

/-! ### Names -/

/-- The letter without its case. The Kelvin sign is a `k` and the long s an `s`. -/
def lower (c : Char) : Char :=
  if 'A' ≤ c ∧ c ≤ 'Z' then Char.ofNat (c.toNat - 'A'.toNat + 'a'.toNat)
  else if c = '\u212a' then 'k' else if c = '\u017f' then 's' else c

/-- This is the name of the field, maybe with other capitals. -/
def Names (field : String) (k : Str) : Prop := k.map lower = field.toList.map lower

/-! ### The JSON that is accepted -/

/-- A text. -/
def Text (v : Json) : Prop := v = .null ∨ ∃ s, v = .str s

/-- A list of texts. -/
def Texts (v : Json) : Prop := v = .null ∨ ∃ l, v = .arr l ∧ ∀ x ∈ l, Text x

/-- Texts with names. -/
def TextMap (v : Json) : Prop := v = .null ∨ ∃ l, v = .obj l ∧ ∀ e ∈ l, Text e.2

/-- A whole number of 64 bits, written without a dot or an exponent. -/
def Whole (l : Str) (n : Int) : Prop :=
  ∃ ds, ds ≠ [] ∧ Spec.Duration.Digits ds ∧ -(2 ^ 63 : Int) ≤ n ∧ n < 2 ^ 63 ∧
    (l = ds ∧ n = Spec.Duration.number ds ∨ l = '-' :: ds ∧ n = -(Spec.Duration.number ds : Int))

/-- A condition of a selector. -/
def ExprJson (v : Json) : Prop := v = .null ∨ ∃ l, v = .obj l ∧ ∀ e ∈ l,
  (Names "key" e.1 → Text e.2) ∧ (Names "operator" e.1 → Text e.2) ∧ (Names "values" e.1 → Texts e.2)

/-- A selector. -/
def SelectorJson (v : Json) : Prop := v = .null ∨ ∃ l, v = .obj l ∧ ∀ e ∈ l,
  (Names "matchLabels" e.1 → TextMap e.2) ∧
  (Names "matchExpressions" e.1 → e.2 = .null ∨ ∃ l, e.2 = .arr l ∧ ∀ x ∈ l, ExprJson x)

/-- A request. Only what has the name of a field has to be of its kind. -/
def SpecJson (v : Json) : Prop := v = .null ∨ ∃ l, v = .obj l ∧ ∀ e ∈ l,
  (Names "labelSelector" e.1 → SelectorJson e.2) ∧ (Names "fieldSelector" e.1 → SelectorJson e.2) ∧
  (Names "hostSelector" e.1 → Texts e.2) ∧ (Names "syscalls" e.1 → Texts e.2) ∧
  (Names "duration" e.1 → ∃ s d, e.2 = .str s ∧ Spec.Duration.Means s d) ∧
  (Names "sampleRate" e.1 → e.2 = .null ∨ ∃ s n, e.2 = .num s ∧ Whole s n)

end Swoll.Spec.Wire
