import Verif.Model.Site
import Verif.Spec.Cluster
import Verif.Spec.Topology
import Verif.Spec.Service
/-
What users of a cluster expect, in terms of the pods that were there, the containers the runtime listed and
the requests made.
-/
namespace Swoll.Spec.Site
open Swoll Swoll.Site
open Swoll.Cluster (Pod Sel)

/-- The runtime listed a container of this name, of this pod, in this pid namespace. -/
def Runs (ops : List Op) (p : Pod) (name : String) (pidns : Int) : Prop :=
  ∃ l cc, .runtime (some l) ∈ ops ∧ cc ∈ l ∧ Spec.Topology.ownedBy p.view cc ∧
    (GoMap.get cc.labels "io.kubernetes.container.name").getD "" = name ∧ cc.pidns = some pidns

/-- The container is, or was, one of a pod for which `P` holds. -/
def Found (ops : List Op) (P : Pod → Prop) (c : Topology.Container) : Prop :=
  ∃ p, .put p ∈ ops ∧ P p ∧ p.name = c.pod ∧ p.ns = c.ns ∧ Runs ops p c.name c.pidns

/-- What the requests ask for, in the order they come in: where, which pods, and what of them. -/
def asked (ops : List Op) : List (String × Sel × Service.Body) :=
  ops.filterMap (fun op => match op with
    | .create ns sel _ _ _ b => some (ns, sel, b)
    | .service (.delete _) => some ("", ⟨⟨[], []⟩, ⟨[], []⟩⟩, { hosts := [], calls := [], rate := 0 })
    | _ => none)

/-- The server's own part of the operation is as `Spec.Service.Sane` says. -/
def Sane : Op → Prop
  | .service o => Spec.Service.Sane o
  | _ => True

/-! ### Keeping in touch -/

/-- Pods change. -/
def Changes : Op → Prop
  | .put _ => True
  | .remove _ => True
  | _ => False

/-- Whenever pods change, every observer that has something to do with pods is connected. -/
def Calm (a : Cluster.Api) (tbl : Syscalls.Syscalls) (crc : String → BitVec 64)
    (srt : List PubSub.Env → List PubSub.Env) : Site → List Op → Prop
  | _, [] => True
  | s, o :: os =>
    (Changes o → ∀ w ∈ s.hub :: s.jobs, w.connected = true ∨ (w.store = [] ∧ w.queue = [])) ∧
    ∀ s1 out, step a tbl crc srt s o = some (s1, out) → Calm a tbl crc srt s1 os

/-- The observer: that of the server, `none`, or of a goroutine of a job. -/
def watcher (s : Site) : Option Nat → Option Cluster.Watcher
  | none => some s.hub
  | some p => s.jobs[p]?

/-- What the topology of an observer has been told. -/
def told (s : Site) : Option Nat → List (Option Topology.Event)
  | none => s.log.filterMap (fun o => match o with | .outside (.topo ev) => some ev | _ => none)
  | some p => s.log.filterMap (fun o => match o with | .notice q ev => if q = p then some ev else none | _ => none)

/-- The observer is connected, has handled all changes of the pod, and has been listened to. -/
def CaughtUp (w : Cluster.Watcher) (k : Cluster.Key) : Prop :=
  w.connected = true ∧ (∀ c ∈ w.queue, c.key ≠ k) ∧ w.chan = []

/-- All through the history the runtime lists the container, and no other in its pid namespace. -/
structure Steady (ops : List Op) (cc : Topology.CriContainer) : Prop where
  first : ∃ l rest, ops = .runtime (some l) :: rest
  listed : ∀ x, .runtime x ∈ ops → ∃ l, x = some l ∧ cc ∈ l
  alone : ∀ l cc', .runtime (some l) ∈ ops → cc' ∈ l → cc'.pidns = cc.pidns → cc' = cc

/-- What the observer makes of a container of the runtime that belongs to the pod `k`. -/
structure Lives (cc : Topology.CriContainer) (k : Cluster.Key) (c : Topology.Container) : Prop where
  owned : Spec.Topology.ownedBy ⟨k.2, k.1, ""⟩ cc
  named : k.2 ≠ "" ∧ k.1 ≠ ""
  pid : cc.pid = some c.pid
  pidns : cc.pidns = some c.pidns
  pos : 0 < c.pidns
  same : c = { id := cc.id, pod := k.2, sandbox := "", name := Topology.label cc "io.kubernetes.container.name",
               image := cc.image, ns := k.1, labels := some cc.labels, pid := c.pid, pidns := c.pidns }

/-- Namespaces have no dots in their names. -/
def Dotless (ops : List Op) : Prop := ∀ p, .put p ∈ ops → '.' ∉ p.ns.toList

/-- The pod is never deleted, and keeps the labels and fields pods are selected by. -/
def Stays (ops : List Op) (p : Pod) : Prop :=
  .remove p.key ∉ ops ∧ ∀ q, .put q ∈ ops → q.key = p.key → q.labels = p.labels ∧ q.fields = p.fields

/-- Nothing of what can go wrong with rules of the kernel does: nobody asks for a sampled job, the kernel refuses
no rule, and pid namespaces have the numbers the kernel gives them. -/
structure Orderly (ops : List Op) : Prop where
  unsampled : ∀ x ∈ asked ops, x.2.2.rate ≤ 0
  granted : ∀ p f, .service (.work p f) ∈ ops → f = {}
  inodes : ∀ l cc n, .runtime (some l) ∈ ops → cc ∈ l → cc.pidns = some n → 333 ≤ n ∧ n < 2 ^ 32

end Swoll.Spec.Site
