import Verif.Util.GoMap
/-
Model of the publish/subscribe tree: internal/pkg/node/node.go and
internal/pkg/pubsub/pubsub.go.

Every public operation takes the PubSub's mutex (pubsub.go:155, 165, 281), so a concurrent
execution is a sequence of whole operations; the model's steps are these operations.  A
callback that subscribes while being published to would deadlock (or, with WithNoMutex, change
the tree under the traversal): that is outside the model.
-/
namespace Swoll.PubSub
open Swoll

/-- Path components and children keys are `uint64`. (node.go:9, pubsub.go:149) -/
abbrev Key := BitVec 64

/-- `SubscriptionEnvelope`, node.go:20-24.  The subscription function is represented by a
number naming the Subscribe call that passed it. -/
structure Env where
  token : Nat
  id : Int
  dName : String
  deriving DecidableEq, Repr

/-- `subscriptionInfo`, node.go:15-18. -/
structure Info where
  detCount : Int
  envs : List Env
  deriving DecidableEq, Repr

/-- `Node`, node.go:8-13 (`rand` is passed as an argument where it is used). -/
inductive Node where
  | mk (children : List (Key × Node)) (subs : List (String × Info)) (shards : List (Int × String))

namespace Node

/-- Field `children`, node.go:9. -/
def children : Node → GoMap Key Node
  | mk c _ _ => c

/-- Field `subscriptions`, node.go:10. -/
def subs : Node → GoMap String Info
  | mk _ s _ => s

/-- Field `shards`, node.go:11. -/
def shards : Node → GoMap Int String
  | mk _ _ s => s

/-- `New`, node.go:27-34. -/
def new : Node := mk [] [] []

/-- The probing loop of `createAndSetID`, node.go:154-161, for at most `fuel` further rounds
(the number of entries in `shards` is always enough).  int64 wrap-around is not modelled: it
would take a random value next to 2^63 that is already in use. -/
def probe (shards : GoMap Int String) (id : Int) : Nat → Int
  | 0 => id
  | fuel + 1 => if GoMap.has shards id then probe shards (id + 1) fuel else id

/-- `sort.Sort(envelopes(..))`, node.go:96, 164-178, sorts by `dName` and is not stable.  It is
a parameter of the model, `srt`; this is what is assumed of it. -/
def IsSort (srt : List Env → List Env) : Prop :=
  ∀ l, (srt l).Perm l ∧ (srt l).Pairwise (fun a b => ¬ b.dName < a.dName)

/-- `(*Node).AddSubscription` with `createAndSetID`, node.go:79-100, 152-162; `draw` is what
the random source returned.  Returns the node and the id. -/
def addSubscription (srt : List Env → List Env) (n : Node) (token : Nat) (shard dName : String)
    (draw : Int) : Node × Int :=
  let id := probe n.shards draw n.shards.length
  let shards := GoMap.set n.shards id shard
  let si := (GoMap.get n.subs shard).getD ⟨0, []⟩
  let envs := si.envs ++ [⟨token, id, dName⟩]
  let det := if dName ≠ "" then si.detCount + 1 else si.detCount
  (mk n.children (GoMap.set n.subs shard ⟨det, srt envs⟩) shards, id)

/-- The loop of `DeleteSubscription`, node.go:116-127: drop the first envelope with the id. -/
def dropEnv (id : Int) : List Env → Int → List Env × Int
  | [], det => ([], det)
  | e :: es, det =>
    if e.id ≠ id then
      let r := dropEnv id es det
      (e :: r.1, r.2)
    else (es, if e.dName ≠ "" then det - 1 else det)

/-- `(*Node).DeleteSubscription`, node.go:103-134. -/
def deleteSubscription (n : Node) (id : Int) : Node :=
  match GoMap.get n.shards id with
  | none => n
  | some shard =>
    let shards := GoMap.del n.shards id
    let s := (GoMap.get n.subs shard).getD ⟨0, []⟩
    let r := dropEnv id s.envs s.detCount
    if r.1 = [] then mk n.children (GoMap.del n.subs shard) shards
    else mk n.children (GoMap.set n.subs shard ⟨r.2, r.1⟩) shards

/-- The descent of `Subscribe`, pubsub.go:158-162, with `AddChild`, node.go:37-49: create the
missing nodes and add the subscription at the end of the path. -/
def subscribeAt (srt : List Env → List Env) (token : Nat) (shard dName : String) (draw : Int) :
    Node → List Key → Node × Int
  | n, [] => addSubscription srt n token shard dName draw
  | n, k :: ks =>
    let child := (GoMap.get n.children k).getD new
    let r := subscribeAt srt token shard dName draw child ks
    (mk (GoMap.set n.children k r.1) n.subs n.shards, r.2)

/-- `cleanupSubscriptionTree`, pubsub.go:172-184, with `FetchChild`, `DeleteChild`, `ChildLen`
and `SubscriptionLen`.  `none` is a panic: a missing child is a nil pointer, on which
`ChildLen` (node.go:74) panics once the recursion, which itself accepts nil, returns. -/
def cleanup (id : Int) : Node → List Key → Option Node
  | n, [] => some (deleteSubscription n id)
  | n, k :: ks =>
    match GoMap.get n.children k with
    | none => none
    | some child =>
      match cleanup id child ks with
      | none => none
      | some child' =>
        if child'.children.length = 0 ∧ child'.shards.length = 0 then
          some (mk (GoMap.del n.children k) n.subs n.shards)
        else some (mk (GoMap.set n.children k child') n.subs n.shards)

end Node

/-- A `TreeTraverser`, pubsub.go:193, for the data being published: the child keys its `Paths`
enumerate, each with the traverser to continue with (`none`: nil, use the same one,
pubsub.go:310-312).  `Paths` are functions of an index in the code (pubsub.go:214); the model
takes the list of their values until they return false.  Traversers that unfold forever
without reusing themselves are not represented. -/
inductive Trav where
  | mk (paths : List (Key × Option Trav))

/-- The paths a traverser yields. (pubsub.go:193-214) -/
def Trav.paths : Trav → List (Key × Option Trav)
  | mk ps => ps

/-- `LinearTreeTraverser`, pubsub.go:197-205, with `FlatPaths(nil)` and `PathsWithTraverser`. -/
def linear : List Key → Trav
  | [] => .mk []
  | k :: ks => .mk [(k, some (linear ks))]

/-- The choices the code leaves open during one publish, at each visit of a node (a visit is
named by the indices followed from the root): the order of ranging over the map
`subscriptions` (node.go:147), and the number drawn for a shard group. -/
structure Oracle where
  ord : List Nat → GoMap String Info → GoMap String Info
  pick : List Nat → String → Nat

/-- An oracle only reorders. (of the iteration at node.go:147) -/
def Oracle.Valid (o : Oracle) : Prop := ∀ v m, (o.ord v m).Perm m

variable {D : Type}

/-- `determineIdx`, pubsub.go:320-325; the default hasher (pubsub.go:44-48, `hasher = none`)
draws a random number.  The source is assumed to respect its contract: a value below the
bound. -/
def determineIdx (hasher : Option (D → BitVec 64)) (d : D) (l : Nat) (isDet : Bool) (draw : Nat) : Nat :=
  if isDet then
    match hasher with
    | some h => (h d).toNat % l
    | none => draw % l
  else draw % l

/-- The body of `traversePublish` for one shard group, pubsub.go:290-300: the subscriptions it
invokes.  On an empty group the code would panic; there are none (`c02_shard_once`). -/
def invokeGroup (hasher : Option (D → BitVec 64)) (d : D) (draw : Nat) (shard : String) (si : Info) : List Nat :=
  if shard = "" then si.envs.map (·.token)
  else
    let idx := determineIdx hasher d si.envs.length (decide (si.detCount > 0)) draw
    (si.envs[idx]?).toList.map (·.token)

/-- `ForEachSubscription` (node.go:142-150) with that body, at visit `v`. -/
def invokeNode (hasher : Option (D → BitVec 64)) (o : Oracle) (d : D) (v : List Nat) (n : Node) : List Nat :=
  (o.ord v n.subs).flatMap (fun e => invokeGroup hasher d (o.pick v e.1) e.1 e.2)

theorem child_lt {n c : Node} {k : Key} (h : GoMap.get n.children k = some c) : sizeOf c < sizeOf n := by
  cases n with
  | mk ch s sh =>
    have hm : (k, c) ∈ ch := GoMap.mem_of_get h
    have h1 := List.sizeOf_lt_of_mem hm
    simp only [Node.mk.sizeOf_spec]
    have h2 : sizeOf (k, c) = 1 + sizeOf k + sizeOf c := rfl
    omega

/-- `traversePublish`, pubsub.go:286-318: the tokens invoked, in order. -/
def traverse (hasher : Option (D → BitVec 64)) (o : Oracle) (d : D) (v : List Nat) (a : Trav) (n : Node) : List Nat :=
  invokeNode hasher o d v n ++
    a.paths.zipIdx.flatMap (fun p =>
      match _h : GoMap.get n.children p.1.1 with
      | none => []
      | some c => traverse hasher o d (v ++ [p.2]) (p.1.2.getD a) c)
termination_by sizeOf n
decreasing_by exact child_lt _h

/-- What an `Unsubscriber` closure captures, pubsub.go:164-169. -/
structure Handle where
  id : Int
  path : List Key
  deriving DecidableEq, Repr

/-- A `PubSub` (pubsub.go:26-31) and the unsubscribers handed out so far: the `i`-th Subscribe
call has token `i` and its unsubscriber is `handles[i]`. -/
structure PS where
  root : Node
  handles : List Handle

/-- `New`, pubsub.go:34-53. -/
def PS.new : PS := ⟨Node.new, []⟩

/-- The operations that change a PubSub. (pubsub.go:149-170) -/
inductive Op where
  /-- `Subscribe(sub, WithPath, WithShardID, WithDeterministicRouting)`, and the random draw. -/
  | subscribe (path : List Key) (shard dName : String) (draw : Int)
  /-- calling the unsubscriber returned by the `h`-th Subscribe -/
  | unsubscribe (h : Nat)

/-- One operation; `none` is a panic. `Subscribe` pubsub.go:149-170, the unsubscriber 164-169. -/
def step (srt : List Env → List Env) (s : PS) : Op → Option PS
  | .subscribe path shard dName draw =>
    let r := Node.subscribeAt srt s.handles.length shard dName draw s.root path
    some ⟨r.1, s.handles ++ [⟨r.2, path⟩]⟩
  | .unsubscribe h =>
    match s.handles[h]? with
    | none => some s
    | some hd => (Node.cleanup hd.id s.root hd.path).map (fun root => { s with root := root })

/-- A history of operations. (pubsub.go:149-170) -/
def run (srt : List Env → List Env) (s : PS) : List Op → Option PS
  | [] => some s
  | o :: os => (step srt s o).bind (fun s' => run srt s' os)

/-- `Publish`, pubsub.go:280-284: the tokens invoked. -/
def publish (hasher : Option (D → BitVec 64)) (o : Oracle) (s : PS) (d : D) (a : Trav) : List Nat :=
  traverse hasher o d [] a s.root

end Swoll.PubSub
