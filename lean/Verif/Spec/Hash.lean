/-
What an attached path is meant to select.
-/
namespace Swoll.Spec.Hash

/-- A path as the user means it: components up to the first empty one. -/
def meant (paths : List String) : List String := paths.takeWhile (fun s => s ≠ "")

/-- The checksum keeps the given strings apart (and none of them has the checksum 0 or 1,
which the hash identifies). -/
def Separates (crc : String → BitVec 64) (strings : List String) : Prop :=
  ∀ s ∈ strings, ∀ t ∈ strings,
    (if crc s = 0 then 1 else crc s) = (if crc t = 0 then 1 else crc t) → s = t

end Swoll.Spec.Hash
