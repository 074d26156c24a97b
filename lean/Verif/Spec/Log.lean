import Verif.Model.Log
import Verif.Spec.Json
import Verif.Spec.EventJSON
import Verif.Spec.EventRead
/-
Which events a log gives back as they were, and what else may be found in a log.
-/
namespace Swoll.Spec.Log
open Swoll.Event Swoll.Spec.EventJSON Swoll.Spec.EventRead
open Swoll.Json (Str)
open Swoll.Spec.Json (Space Says)

/-- An address that 16 bytes hold all of: not of IPv6 (family 10), and if of a Unix socket (family 1) with a path that ends
in the 14 bytes after the family. -/
def Short (bs : List Bytes.Byte) : Prop := bs.take 2 ≠ [10, 0] ∧ (bs.take 2 = [1, 0] → 0 ∈ (bs.drop 2).take 14)

/-- An event of system call `nr` all of which JSON tells: the arguments are whole, 16 bytes hold an address, and
the command is well formed text. Nanosleep, 35, is left out. -/
structure Simple (nr : Nat) (ev : TraceEvent Topology.Container) : Prop where
  args : Intact nr ev.argv
  address : ∀ n bs, (n, Val.buf bs) ∈ ev.argv → specials.lookup (nr, n) = some .address → Short bs
  awake : nr ≠ 35
  comm : Utf8 ev.comm
  container : ∀ c, ev.container = some c → Carried c ∧ c.labels ≠ some []

/-- The number of bytes. -/
def bytes (s : Str) : Nat := (s.flatMap String.utf8EncodeChar).length

/-- A line that is no message: it is empty, or is no JSON and has at least two bytes and less than 64 KiB. -/
def Noise (s : Str) : Prop :=
  s = [] ∨ (2 ≤ bytes s ∧ bytes s < 65536 ∧ '\n' ∉ s ∧ '\r' ∉ s ∧
    ¬ ∃ w t w' v, s = w ++ t ++ w' ∧ Space w ∧ Says t v ∧ Space w')

end Swoll.Spec.Log
