import Verif.Model.PubSub
/-
`Paths` as the functions with a state that they are: internal/pkg/pubsub/pubsub.go:207-277, and the loop that calls them,
pubsub.go:302-317.

Simplification: the data that is published is not an argument; every `Paths` of the package leaves it alone.
-/
namespace Swoll.Paths
open Swoll Swoll.PubSub

/-- A path and the traverser to go on with (`none`: nil). (pubsub.go:214) -/
abbrev Entry := Key × Option Trav

/-- The closures of the package: those over a slice, and `CombinePaths` with its variables `currentStart` and `p`.
(pubsub.go:217-277) -/
inductive Paths where
  | slice (l : List Entry)
  | combined (currentStart : Int) (p : List Paths)

/-- `FlatPaths`. (pubsub.go:239-247) -/
def flatPaths (p : List Key) : Paths := .slice (p.map (·, none))

/-- `PathsWithTraverser`. (pubsub.go:251-259) -/
def pathsWithTraverser (paths : List Key) (a : Trav) : Paths := .slice (paths.map (·, some a))

/-- `PathAndTraversers`. (pubsub.go:269-277) -/
def pathAndTraversers (t : List (Key × Trav)) : Paths := .slice (t.map fun e => (e.1, some e.2))

/-- `CombinePaths`. (pubsub.go:217-218) -/
def combinePaths (p : List Paths) : Paths := .combined 0 p

mutual
/-- A call: what it returns (`none` is a panic, `some none` is not ok), and the closure afterwards.
(pubsub.go:219-234, 240-246, 252-258, 270-276) -/
def call : Paths → Int → Option (Option Entry) × Paths
  | .slice l, idx => (if idx ≥ l.length then some none else if idx < 0 then none else some (l[idx.toNat]?), .slice l)
  | .combined start p, idx =>
    let r := calls p start idx
    (r.1, .combined r.2.1 r.2.2)
/-- The loop of `CombinePaths`. (pubsub.go:220-232) -/
def calls : List Paths → Int → Int → Option (Option Entry) × Int × List Paths
  | [], start, _ => (some none, start, [])
  | pp :: p, start, idx =>
    match call pp (idx - start) with
    | (none, pp') => (none, start, pp' :: p)
    | (some (some e), pp') => (some (some e), start, pp' :: p)
    | (some none, _) => calls p idx idx
end

/-- The loop of `traversePublish`: the paths it follows, and the closure when it ends. `none` is a panic or too little
fuel. (pubsub.go:302-317) -/
def visit : Nat → Paths → Int → Option (List Entry × Paths)
  | 0, _, _ => none
  | n + 1, p, i =>
    match call p i with
    | (none, _) => none
    | (some none, p') => some ([], p')
    | (some (some e), p') => (visit n p' (i + 1)).map fun r => (e :: r.1, r.2)

end Swoll.Paths
