import Verif.Model.Walk
/-
What the table of metrics holds and what happens while it is read.
-/
namespace Swoll.Spec.Walk
open Swoll Swoll.Probe Swoll.Walk

/-- The keys in the table. -/
def keys (t : Table) : List MKey := t.flatten.map (·.1)

/-- The table with `n` buckets after the probe has stored `es`, one after the other. -/
def filled (hash : MKey → Nat) (n : Nat) (es : List (MKey × MVal)) : Table :=
  es.foldl (store hash) (List.replicate n [])

/-- What the probe stores while the table is read. -/
def stored (sched : List Meanwhile) : List (MKey × MVal) := sched.flatMap fun s => s.before ++ s.within

/-- Nothing that the probe stores while the table is read shares a bucket with another entry, and nothing has the key
of all zeros. -/
def Apart (hash : MKey → Nat) (old new : List MKey) : Prop :=
  (∀ k ∈ old ++ new, k ≠ ⟨0, 0, 0⟩) ∧ ∀ u ∈ new, ∀ k ∈ old ++ new, k ≠ u → hash k ≠ hash u

end Swoll.Spec.Walk
