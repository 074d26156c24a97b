import Verif.Model.Topology
import Verif.Model.Json
import Verif.Model.Flags
/-
How the observer finds the process of a container and its namespace: what the container runtime says of it
(pkg/topology/kubernetes.go) and what the proc file system says of the process (pkg/topology/ns.go).

Simplifications: numbers in the answer of the runtime other than the number of the process are in the range of float64; the
answers of the runtime and of the file system do not change during one listing.
-/
namespace Swoll.Runtime
open Swoll Swoll.Topology
open Swoll.Json (Str Json)

/-! ### The process -/

/-- A container in the list of the runtime, with the `info` of its status; `none` is an error. (kubernetes.go:212-221, 271-296) -/
structure Listed where
  id : String
  image : String
  labels : GoMap String String
  status : Option (GoMap Str Str)

/-- A number of the container's process. -/
inductive Got where
  | err
  | pid (n : Int)
  /-- the program ends -/
  | crash
  deriving DecidableEq, Repr

/-- A number in JSON as float64 and then as int: below 2^53 it is kept; `other` is the library for what is not a whole number in
that range, `none` an error. (kubernetes.go:224, 229) -/
def number (other : Str → Option Int) (l : Str) : Option Int := match Flags.digitsVal 0 l with
  | some n => if n < 2 ^ 53 then some n else other l
  | none => other l

/-- `json.Unmarshal` into a map. (kubernetes.go:224-226) -/
def info (text : Str) : Option (List (Str × Json)) := match Json.only text with
  | some (.obj ms) => some ms
  | some .null => some []
  | _ => none

/-- The member of this name; the last, if there are several. (Library, used at kubernetes.go:224.) -/
def lastOf (ms : List (Str × Json)) (k : Str) : Option Json := (ms.filter (fun m => m.1 = k)).getLast?.map (·.2)

/-- `getContainerPid`, kubernetes.go:212-233. -/
def getContainerPid (other : Str → Option Int) (status : Option (GoMap Str Str)) : Got := match status with
  | none => .err
  | some raw => match info ((GoMap.get raw "info".toList).getD []) with
    | none => .err
    | some ms => match lastOf ms "pid".toList with
      | none => .err
      | some (.num l) => match number other l with
        | some n => .pid n
        | none => .err
      | some _ => .crash

/-! ### The namespace -/

/-- The parts of a path between slashes. (Library, used at ns.go:14.) -/
def split : Str → List Str
  | [] => [[]]
  | c :: s => if c = '/' then [] :: split s else match split s with
    | [] => [[c]]
    | f :: fs => (c :: f) :: fs

/-- One part in `path.Clean`. (Library, used at ns.go:14.) -/
def part (rooted : Bool) (acc : List Str) (s : Str) : List Str :=
  if s = [] ∨ s = ['.'] then acc
  else if s = ['.', '.'] then
    match acc.getLast? with
    | some l => if l = ['.', '.'] then acc ++ [s] else acc.dropLast
    | none => if rooted then [] else [s]
  else acc ++ [s]

/-- `strings.Join` with slashes. (Library, used at ns.go:14.) -/
def slashed : List Str → Str
  | [] => []
  | [s] => s
  | s :: ss => s ++ '/' :: slashed ss

/-- `path.Clean`. (Library, used at ns.go:14.) -/
def clean (p : Str) : Str :=
  let rooted := p.head? == some '/'
  let segs := (split p).foldl (part rooted) []
  if rooted then '/' :: slashed segs else if segs = [] then ['.'] else slashed segs

/-- `path.Join`. (Library, used at ns.go:14.) -/
def join (l : List Str) : Str := match l.dropWhile (· = []) with
  | [] => []
  | l => clean (slashed l)

/-- The file of a namespace of a process. (ns.go:14) -/
def nsFile (root : Str) (pid : Int) (t : Str) : Str := join [root, "/proc".toList, Flags.itoa pid, "ns".toList, t]

/-- `getNamespaceIno`, ns.go:11-21. `fs` gives the inode number of a file; `none` is an error. -/
def getNamespaceIno (fs : Str → Option (BitVec 64)) (root : Str) (pid : Int) (t : Str) : Option Int := (fs (nsFile root pid t)).map BitVec.toInt

/-- `getPidNamespace`, ns.go:25-27. -/
def getPidNamespace (fs : Str → Option (BitVec 64)) (root : Str) (pid : Int) : Option Int := getNamespaceIno fs root pid "pid_for_children".toList

/-! ### The list -/

/-- One round of the loop of `criContainers`, kubernetes.go:271-324; the outer `none` is a crash, the inner one `continue`. -/
def round (other : Str → Option Int) (fs : Str → Option (BitVec 64)) (root : Str) (m : Option (String × String)) (c : Listed) :
    Option (Option Container) :=
  let get := fun k => (GoMap.get c.labels k).getD ""
  let pod := get "io.kubernetes.pod.name"
  let kns := get "io.kubernetes.pod.namespace"
  let name := get "io.kubernetes.container.name"
  let skip := match m with
    | some (p, n) => (pod == "" || kns == "") || (p != pod || n != kns)
    | none => false
  if skip then some none
  else match getContainerPid other c.status with
    | .crash => none
    | .err => some none
    | .pid pid => match getPidNamespace fs root pid with
      | none => some none
      | some pidns => some (some ⟨c.id, pod, "", name, c.image, kns, some c.labels, pid, pidns⟩)

/-- What `Topology.criOne` is given of a container: what came out of the lookups. (kubernetes.go:297-312) -/
def ofListed (other : Str → Option Int) (fs : Str → Option (BitVec 64)) (root : Str) (c : Listed) : CriContainer :=
  let pid := match getContainerPid other c.status with
    | .pid n => some n
    | _ => none
  ⟨c.id, c.image, c.labels, pid, pid.bind (getPidNamespace fs root)⟩

/-- `criContainers`, kubernetes.go:242-327, with the list of the runtime; `none` is a crash. -/
def containers (other : Str → Option Int) (fs : Str → Option (BitVec 64)) (root : Str) (m : Option (String × String)) :
    List Listed → Option (List Container)
  | [] => some []
  | c :: cs => match round other fs root m c with
    | none => none
    | some r => (containers other fs root m cs).map (r.toList ++ ·)

end Swoll.Runtime
