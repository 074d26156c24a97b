import Verif.Model.Topology
/-
What users expect of the topology: the last word about each pid namespace decides, and the
observer announces the containers of pods.
-/
namespace Swoll.Spec.Topology
open Swoll Swoll.Topology

/-- What a well-formed event says: started or stopped, and which container. -/
def meaning (ev : Option Event) : Option (Bool × Container) :=
  match ev with
  | some ⟨t, some c⟩ => if 0 < c.pidns ∧ (t = 0 ∨ t = 1) then some (t = 0, c) else none
  | _ => none

/-- The error a malformed event deserves. -/
def complaint (ev : Option Event) : Option Err :=
  match ev with
  | none => some .nilEvent
  | some ⟨_, none⟩ => some .nilContainer
  | some ⟨t, some c⟩ =>
    if c.pidns ≤ 0 then some .badNamespace
    else if t = 0 ∨ t = 1 then none else some .unknownType

/-- The container a namespace stands for after some events: decided by the last meaningful
event for the namespace. -/
def resident (evs : List (Option Event)) (ns : Int) : Option Container :=
  match ((evs.filterMap meaning).filter (fun m => m.2.pidns = ns)).getLast? with
  | some (true, c) => some c
  | _ => none

/-- Equality of containers up to the representation of their label maps. -/
def Same (a b : Container) : Prop :=
  a.id = b.id ∧ a.pod = b.pod ∧ a.sandbox = b.sandbox ∧ a.name = b.name ∧ a.image = b.image ∧
    a.ns = b.ns ∧ a.pid = b.pid ∧ a.pidns = b.pidns ∧
    ∀ k, GoMap.get (a.labels.getD []) k = GoMap.get (b.labels.getD []) k

/-- The pod a CRI container belongs to, by its labels. -/
def ownedBy (p : Pod) (c : CriContainer) : Prop :=
  GoMap.get c.labels "io.kubernetes.pod.name" = some p.name ∧
  GoMap.get c.labels "io.kubernetes.pod.namespace" = some p.ns

/-- Who a notification is about. -/
def about : Note → String × String
  | .add p _ => (p.name, p.ns)
  | .update _ p _ => (p.name, p.ns)
  | .delete p _ => (p.name, p.ns)

/-- The containers of its pod a notification finds running. -/
def found : Note → List Container
  | .add p cri => containersForPod p cri
  | .update _ p cri => containersForPod p cri
  | .delete p cri => containersForPod p cri

def isDelete : Note → Bool
  | .delete _ _ => true
  | _ => false

/-- Running before and after. -/
def isSteady : Note → Bool
  | .update old new _ => old.phase == "Running" && new.phase == "Running"
  | _ => false

/-- The containers remembered for a pod: those of the first steady update that found any,
since the pod's last deletion. -/
def remembered (notes : List Note) (p : String × String) : Option (List Container) :=
  notes.foldl (fun acc n =>
    if about n = p then
      if isDelete n then none
      else if isSteady n ∧ acc = none ∧ found n ≠ [] then some (found n) else acc
    else acc) none

def start (c : Container) : Event := ⟨0, some c⟩
def stop (c : Container) : Event := ⟨1, some c⟩

end Swoll.Spec.Topology
