import Verif.Model.PubSub
/-
What the publish/subscribe tree is meant to do, without a tree.
-/
namespace Swoll.Spec.PubSub
open Swoll Swoll.PubSub

/-- A subscription: which Subscribe call made it and with which options. -/
structure Sub where
  token : Nat
  path : List Key
  shard : String
  dName : String
  deriving DecidableEq, Repr

/-- Effect of an operation on (number of Subscribe calls so far, active subscriptions). -/
def specStep (s : Nat × List Sub) : Op → Nat × List Sub
  | .subscribe path shard dName _ => (s.1 + 1, s.2 ++ [⟨s.1, path, shard, dName⟩])
  | .unsubscribe h => (s.1, s.2.filter (fun x => x.token ≠ h))

/-- The subscriptions active after a history. -/
def active (hist : List Op) : List Sub := (hist.foldl specStep (0, [])).2

/-- Number of Subscribe calls in a history. -/
def subscribed (hist : List Op) : Nat := (hist.foldl specStep (0, [])).1

/-- The subscription an operation cancels. -/
def cancels : Op → Option Nat
  | .unsubscribe h => some h
  | .subscribe .. => none

/-- No unsubscriber is called twice. -/
def UnsubOnce (hist : List Op) : Prop := (hist.filterMap cancels).Nodup

/-- Number of ways a traverser spells a path. -/
def ways : Trav → List Key → Nat
  | _, [] => 1
  | a, k :: ks => ((a.paths.filter (fun p => p.1 = k)).map (fun p => ways (p.2.getD a) ks)).sum

/-- The node at a path. -/
def nodeAt : Node → List Key → Option Node
  | n, [] => some n
  | n, k :: ks => (GoMap.get n.children k).bind (fun c => nodeAt c ks)

/-- The subscriptions of a list made at a path with a shard id. -/
def group (act : List Sub) (path : List Key) (shard : String) : List Sub :=
  act.filter (fun x => x.path = path ∧ x.shard = shard)

/-- Each active unsharded subscription is invoked once per way the traverser spells its path,
and only active subscriptions whose path is spelled are invoked. -/
def DeliversUnsharded (act : List Sub) (a : Trav) (out : List Nat) : Prop :=
  (∀ x ∈ act, x.shard = "" → out.count x.token = ways a x.path) ∧
  (∀ t ∈ out, ∃ x ∈ act, x.token = t ∧ 0 < ways a x.path)

end Swoll.Spec.PubSub
