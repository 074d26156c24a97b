import Verif.Model.Probe
/-
Reading the metrics while calls are being counted: `QueryAll` and `PruneNamespace` of pkg/kernel/metrics/handler.go walk
the table of the kernel key by key, and between any two of their calls the probe may store metrics, probe.c:1506, 1529.

The table is a hash table as Linux has it (kernel/bpf/hashtab.c, `htab_map_update_elem`, `htab_map_get_next_key`): buckets,
each a list; storing puts a new element at the front of its bucket and then takes the old one out. Simplifications: the
two are one step (a reader between them finds the new element first); storing never fails; what is stored is any value
(Model/Probe says which).
-/
namespace Swoll.Walk
open Swoll Swoll.Probe

/-- A bucket. (Linux, kernel/bpf/hashtab.c; used at probe.c:216-223) -/
abbrev Bucket := List (MKey × MVal)

/-- The buckets. (Linux, kernel/bpf/hashtab.c; used at probe.c:216-223) -/
abbrev Table := List Bucket

/-- The bucket of a key. (Linux; used at handler.go:34-37, 64-67) -/
def bucketOf (hash : MKey → Nat) (t : Table) (k : MKey) : Bucket := (t[hash k]?).getD []

/-- `bpf_map_lookup_elem`. (Linux; used at probe.c:1457 and by `LookupNextElement`, handler.go:64) -/
def find (hash : MKey → Nat) (t : Table) (k : MKey) : Option MVal := (bucketOf hash t k).lookup k

/-- `bpf_map_update_elem` with `BPF_ANY`: to the front of the bucket. (Linux; used at probe.c:1506, 1529) -/
def store (hash : MKey → Nat) (t : Table) (e : MKey × MVal) : Table :=
  t.set (hash e.1) (e :: (bucketOf hash t e.1).filter fun x => x.1 ≠ e.1)

/-- `bpf_map_delete_elem`. (Linux; used at handler.go:50) -/
def remove (hash : MKey → Nat) (t : Table) (k : MKey) : Table :=
  t.set (hash k) ((bucketOf hash t k).filter fun x => x.1 ≠ k)

/-- `bpf_map_get_next_key`: the key behind `k` in its bucket, else the first of the buckets behind; the first of all if
`k` is not there. (Linux; used at handler.go:34, 64) -/
def nextKey (hash : MKey → Nat) (t : Table) (k : MKey) : Option MKey :=
  match (bucketOf hash t k).dropWhile fun x => x.1 ≠ k with
  | [] => t.flatten.head?.map (·.1)
  | _ :: n :: _ => some n.1
  | [_] => (t.drop (hash k + 1)).flatten.head?.map (·.1)

/-- One round of the loop in `QueryAll`, `LookupNextElement` of gobpf: the next key, then its value. `mid` is what the
probe stores in between. Nothing if there is no next key or no value. (handler.go:64-74) -/
def turn (hash : MKey → Nat) (t : Table) (k : MKey) (mid : List (MKey × MVal)) : Option (MKey × MVal) × Table :=
  match nextKey hash t k with
  | none => (none, t)
  | some n =>
    let t := mid.foldl (store hash) t
    match find hash t n with
    | none => (none, t)
    | some v => (some (n, v), t)

/-- What the probe stores before a round and within it. -/
structure Meanwhile where
  before : List (MKey × MVal) := []
  within : List (MKey × MVal) := []

/-- The loop in `QueryAll` from key `k` on: what it has appended, whether it has ended, and the table. It has not ended if
more rounds would follow those in `sched`. (handler.go:63-76) -/
def walk (hash : MKey → Nat) : Table → MKey → List Meanwhile → List (MKey × MVal) × Bool × Table
  | t, _, [] => ([], false, t)
  | t, k, s :: sched =>
    match turn hash (s.before.foldl (store hash) t) k s.within with
    | (none, t) => ([], true, t)
    | (some e, t) =>
      let r := walk hash t e.1 sched
      (e :: r.1, r.2)

/-- `QueryAll`, handler.go:54-79. -/
def queryAll (hash : MKey → Nat) (t : Table) (sched : List Meanwhile) : List (MKey × MVal) × Bool × Table :=
  walk hash t ⟨0, 0, 0⟩ sched

/-- `PruneNamespace`: the same walk, then the entries of the namespace that it met are deleted. (handler.go:23-52) -/
def prune (hash : MKey → Nat) (t : Table) (ns : BitVec 32) (sched : List Meanwhile) : Nat × Bool × Table :=
  let r := walk hash t ⟨0, 0, 0⟩ sched
  let gone := (r.1.map (·.1)).filter fun k => k.pidNs = ns
  (gone.length, r.2.1, gone.foldl (remove hash) r.2.2)

end Swoll.Walk
