import Verif.Model.Paths
/-
Which paths a publish follows.
-/
namespace Swoll.Spec.Paths
open Swoll.Paths

/-- The loop of a publish follows just these paths, in this order. -/
def Follows (p : Paths) (l : List Entry) : Prop := ∀ n, l.length < n → ∃ p', visit n p 0 = some (l, p')

end Swoll.Spec.Paths
