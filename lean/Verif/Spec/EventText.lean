import Verif.Model.Topology
/-
How much a client is told about a container, and what ordinary text is.
-/
namespace Swoll.Spec.EventText

/-- A printable ASCII character that JSON does not escape. -/
def Printable (c : Char) : Prop := 0x20 ≤ c.toNat ∧ c.toNat < 0x7f ∧ c ≠ '"' ∧ c ≠ '\\' ∧ c ≠ '<' ∧ c ≠ '>' ∧ c ≠ '&'

/-- The strings that describe a container. -/
def strings (c : Topology.Container) : List String :=
  [c.id, c.pod, c.sandbox, c.name, c.image, c.ns] ++ (c.labels.getD []).flatMap fun e => [e.1, e.2]

/-- A container described by at most `n` bytes: the letters of its strings, six bytes for each label and 150 for the
names of the members and the two numbers. -/
structure Described (n : Nat) (c : Topology.Container) : Prop where
  printable : ∀ s ∈ strings c, ∀ x ∈ s.toList, Printable x
  small : ((strings c).map fun s => s.toList.length).sum + 6 * (c.labels.getD []).length + 150 ≤ n
  pid : -2 ^ 63 ≤ c.pid ∧ c.pid < 2 ^ 63
  pidns : -2 ^ 63 ≤ c.pidns ∧ c.pidns < 2 ^ 63

/-- A byte of ordinary text: printable ASCII other than `<`, `>` and `&`. -/
def Ordinary (b : UInt8) : Prop := 0x20 ≤ b.toNat ∧ b.toNat < 0x7f ∧ b ≠ 0x3c ∧ b ≠ 0x3e ∧ b ≠ 0x26

end Swoll.Spec.EventText
